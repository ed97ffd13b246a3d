import Verif.Proofs.WarpPath
import Verif.Props.Warped
import Verif.Spec.Grouping

/-!
# A triangle inequality for the warped distance

The warped distance is not a metric, but replacing one series by another of the same length changes it by no more than the
Euclidean distance of the two, times the root of how often a path can visit one point.
-/

namespace Onex
open Spec Finset

variable {r : ℕ}

theorem chain_sum : ∀ {p : List (ℕ × ℕ)}, p.IsChain IsStep → p.Pairwise fun a b => a.1 + a.2 < b.1 + b.2 ∧ a.1 ≤ b.1 ∧ a.2 ≤ b.2
  | [], _ => .nil
  | [_], _ => by simp
  | a :: b :: p, h => by
    rw [List.isChain_cons_cons] at h
    have ih := chain_sum h.2
    have hs : a.1 + a.2 < b.1 + b.2 ∧ a.1 ≤ b.1 ∧ a.2 ≤ b.2 := by
      rcases h.1 with e | e | e
      · rw [e]
        exact ⟨by simp only; omega, by simp, le_rfl⟩
      · rw [e]
        exact ⟨by simp only; omega, le_rfl, by simp⟩
      · rw [e]
        exact ⟨by simp only; omega, by simp, by simp⟩
    refine List.pairwise_cons.mpr ⟨?_, ih⟩
    intro c hc
    rcases List.mem_cons.mp hc with rfl | hc
    · exact hs
    · have := (List.pairwise_cons.mp ih).1 c hc
      omega

theorem path_nodup {i j : ℕ} {p : List (ℕ × ℕ)} (hp : IsWarpPath r i j p) : p.Nodup :=
  (chain_sum hp.steps).imp fun h e => by
    rw [e] at h
    omega

theorem path_col {i j : ℕ} {p : List (ℕ × ℕ)} (hp : IsWarpPath r i j p) {c : ℕ × ℕ} (hc : c ∈ p) : c.2 ≤ j := by
  obtain ⟨p', rfl⟩ := List.getLast?_eq_some_iff.mp hp.last
  rcases List.mem_append.mp hc with h | h
  · exact ((List.pairwise_append.mp (chain_sum hp.steps)).2.2 c h (i, j) (by simp)).2.2
  · simp at h
    rw [h]

theorem pathCost_finset (a b : List ℝ) {p : List (ℕ × ℕ)} (hp : p.Nodup) :
    pathCost a b p = ∑ c ∈ p.toFinset, (a.getD c.1 0 - b.getD c.2 0) ^ 2 := by
  unfold pathCost
  rw [List.sum_toFinset _ hp]

/-- A path visits every column at most `2 r + 1` times. -/
theorem col_sum {i j : ℕ} {p : List (ℕ × ℕ)} (hp : IsWarpPath r i j p) (f : ℕ → ℝ) (hf : ∀ k, 0 ≤ f k) :
    ∑ c ∈ p.toFinset, f c.2 ≤ (2 * r + 1) * ∑ k ∈ range (j + 1), f k := by
  rw [← sum_fiberwise_of_maps_to (t := range (j + 1)) (g := fun c : ℕ × ℕ => c.2) (by
    intro c hc
    have := path_col hp (List.mem_toFinset.mp hc)
    simp only [mem_range]
    omega), mul_sum]
  refine sum_le_sum fun k _ => ?_
  rw [sum_congr rfl (g := fun _ => f k) (by
    intro c hc
    rw [(mem_filter.mp hc).2]), sum_const, nsmul_eq_mul]
  refine mul_le_mul_of_nonneg_right ?_ (hf k)
  have hcard : (p.toFinset.filter fun c => c.2 = k).card ≤ (Icc (k - r) (k + r)).card := by
    refine card_le_card_of_injOn (fun c => c.1) ?_ ?_
    · intro c hc
      have hc := mem_filter.mp (mem_coe.mp hc)
      have := hp.band c (List.mem_toFinset.mp hc.1)
      simp only [coe_Icc, Set.mem_Icc]
      omega
    · intro c hc d hd e
      exact Prod.ext e ((mem_filter.mp (mem_coe.mp hc)).2.trans (mem_filter.mp (mem_coe.mp hd)).2.symm)
  have : (p.toFinset.filter fun c => c.2 = k).card ≤ 2 * r + 1 := by
    refine hcard.trans ?_
    simp only [Nat.card_Icc]
    omega
  exact_mod_cast this

theorem path_triangle (q a y : List ℝ) (hy : 1 ≤ y.length) {i : ℕ} {p : List (ℕ × ℕ)}
    (hp : IsWarpPath r i (y.length - 1) p) :
    Real.sqrt (pathCost q a p) ≤ Real.sqrt (pathCost q y p) + Real.sqrt ((2 * r + 1) * y.length) * rms y a := by
  have hn := path_nodup hp
  rw [pathCost_finset q a hn, pathCost_finset q y hn]
  have hm := sqrt_sum_add_le p.toFinset (fun c => q.getD c.1 0 - y.getD c.2 0) (fun c => y.getD c.2 0 - a.getD c.2 0)
  simp only [sub_add_sub_cancel] at hm
  refine hm.trans (add_le_add le_rfl ?_)
  have hc := col_sum hp (fun k => (y.getD k 0 - a.getD k 0) ^ 2) fun _ => sq_nonneg _
  refine (Real.sqrt_le_sqrt hc).trans ?_
  unfold rms
  rw [← Real.sqrt_mul (by positivity), Nat.sub_add_cancel hy]
  apply Real.sqrt_le_sqrt
  have hpos : (0 : ℝ) < y.length := by exact_mod_cast hy
  rw [mul_assoc, mul_div_cancel₀ _ hpos.ne']

/-- The triangle inequality. -/
theorem warped_triangle (ratio : ℝ) (q a y : List ℝ) (hay : a.length = y.length) (hy : 1 ≤ y.length) {w : ℝ}
    (hw : warped ratio q y = F.fin w) :
    ∃ v, warped ratio q a = F.fin v ∧ v ≤ w + Real.sqrt ((2 * bandSize ratio (max q.length y.length) + 1) * y.length) *
      rms y a / (2 * max (q.length : ℝ) y.length) := by
  unfold warped at hw ⊢
  simp only at hw ⊢
  rw [hay]
  by_cases hne : (warpCosts (bandSize ratio (max q.length y.length)) q y).Nonempty
  · rw [if_pos hne] at hw
    have hleast : ∀ b : List ℝ, b.length = y.length →
        IsLeast (warpCosts (bandSize ratio (max q.length y.length)) q b)
          (sInf (warpCosts (bandSize ratio (max q.length y.length)) q b)) := by
      intro b hb
      have hin : inB (bandSize ratio (max q.length y.length)) (q.length - 1) (b.length - 1) := by
        rw [hb]
        exact (warpCosts_nonempty q y).mp hne
      have := dp_isLeast q b hin
      rwa [this.csInf_eq]
    obtain ⟨p, hp, hpc⟩ := (hleast y rfl).1
    have hmem : pathCost q a p ∈ warpCosts (bandSize ratio (max q.length y.length)) q a := ⟨p, by rw [hay]; exact hp, rfl⟩
    rw [if_pos ⟨_, hmem⟩]
    refine ⟨_, rfl, ?_⟩
    rw [F.fin.injEq] at hw
    have h1 := (hleast a hay).2 hmem
    have h2 := path_triangle q a y hy hp
    rw [hpc] at h2
    rw [← hw, ← add_div]
    exact div_le_div_of_nonneg_right ((Real.sqrt_le_sqrt h1).trans h2) (by positivity)
  · rw [if_neg hne] at hw
    cases hw

/-- A wider band does not increase the distance. -/
theorem warped_wider {ratio₀ ratio : ℝ} (hr : ratio₀ ≤ ratio) (a b : List ℝ) {x : ℝ} (h : warped ratio₀ a b = F.fin x) :
    ∃ y, warped ratio a b = F.fin y ∧ y ≤ x := by
  unfold warped at h ⊢
  simp only at h ⊢
  by_cases hne : (warpCosts (bandSize ratio₀ (max a.length b.length)) a b).Nonempty
  · rw [if_pos hne, F.fin.injEq] at h
    have hle : bandSize ratio₀ (max a.length b.length) ≤ bandSize ratio (max a.length b.length) := by
      unfold bandSize
      have : ⌊((max a.length b.length : ℕ) : ℝ) * ratio₀⌋₊ ≤ ⌊((max a.length b.length : ℕ) : ℝ) * ratio⌋₊ :=
        Nat.floor_mono (mul_le_mul_of_nonneg_left hr (Nat.cast_nonneg _))
      omega
    have hsub : warpCosts (bandSize ratio₀ (max a.length b.length)) a b ⊆
        warpCosts (bandSize ratio (max a.length b.length)) a b := by
      rintro c ⟨p, hp, rfl⟩
      refine ⟨p, ⟨hp.head, hp.last, hp.steps, fun q hq => ?_⟩, rfl⟩
      have := hp.band q hq
      omega
    rw [if_pos (hne.mono hsub)]
    refine ⟨_, rfl, ?_⟩
    rw [← h]
    refine div_le_div_of_nonneg_right (Real.sqrt_le_sqrt (csInf_le_csInf ⟨0, ?_⟩ hne hsub)) (by positivity)
    rintro c ⟨p, _, rfl⟩
    exact List.sum_nonneg fun z hz => by
      obtain ⟨q, _, rfl⟩ := List.mem_map.mp hz
      exact sq_nonneg _
  · rw [if_neg hne] at h
    cases h

/-- The scaled Euclidean distance of series of one length bounds the warped one. -/
theorem warped_le_rms (ratio : ℝ) (a b : List ℝ) (hab : a.length = b.length) (ha : 1 ≤ a.length) :
    ∃ w, warped ratio a b = F.fin w ∧ w ≤ rms a b / (2 * Real.sqrt a.length) := by
  have hin : ∀ R : ℕ, inB R (a.length - 1) (b.length - 1) := fun R => by
    rw [hab]
    unfold inB
    omega
  have h0 := warpCosts_nonempty (r := bandSize ratio (max a.length b.length)) a b
  have hleast := dp_isLeast a b (hin (bandSize ratio (max a.length b.length)))
  unfold warped
  simp only
  rw [if_pos (h0.mpr (hin _)), hleast.csInf_eq]
  refine ⟨_, rfl, ?_⟩
  have hd := dp_diag_le_pacc Rounding.exact a b (bandSize ratio (max a.length b.length)) (a.length - 1)
  rw [Nat.sub_add_cancel ha, pacc_exact] at hd
  have hpos : (0 : ℝ) < a.length := by exact_mod_cast ha
  have hs : 0 < Real.sqrt (a.length : ℝ) := Real.sqrt_pos.mpr hpos
  unfold rms
  simp only [← hab, max_self] at hd ⊢
  rw [Real.sqrt_div' _ hpos.le, div_div, div_le_div_iff₀ (by positivity) (by positivity)]
  have e : Real.sqrt (a.length : ℝ) * (2 * Real.sqrt a.length) = 2 * a.length := by
    have := Real.mul_self_sqrt hpos.le
    linarith
  rw [e]
  exact mul_le_mul_of_nonneg_right (Real.sqrt_le_sqrt hd) (by positivity)

end Onex
