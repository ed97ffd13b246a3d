import Verif.Spec.GroupCount
import Verif.Proofs.LeaderCount
import Verif.Proofs.WarpTriangle
import Verif.Props.Leader
import Mathlib.Algebra.BigOperators.Group.Finset.Basic
import Mathlib.Order.Interval.Finset.Nat

/-!
# Numbers of groups, from leader clustering and from partitions
-/

namespace Onex
open DataT Spec

/-! ## The sub-series -/

theorem subOrder_length (cnt sub : ℕ) : (subOrder cnt sub).length = cnt * sub := by
  simp [subOrder, List.length_flatMap, Nat.mul_comm]

theorem subOrder_isSub {cnt : ℕ} {L : ℕ} {l : Int} {c : Coord} (lL : l ≤ L) : c ∈ subOrder cnt (L - l + 1).toNat ↔ IsSub cnt L l c := by
  rw [mem_subOrder]
  unfold IsSub
  omega

theorem subOrder_ne {cnt sub : ℕ} (h1 : 1 ≤ cnt) (h2 : 1 ≤ sub) : subOrder cnt sub ≠ [] := by
  intro h
  have := subOrder_length cnt sub
  rw [h] at this
  have : 0 < cnt * sub := Nat.mul_pos h1 h2
  simp at *
  omega

theorem subVals_length {R : List (List ℝ)} {L : ℕ} (hR : ∀ r ∈ R, r.length = L) {l : Int} {c : Coord} (h : IsSub R.length L l c) :
    (subVals R l c).length = l.toNat := by
  obtain ⟨⟨h1, h2⟩, h3, h4⟩ := h
  have hi : c.1.toNat < R.length := by omega
  have := hR _ (List.getElem_mem hi)
  unfold subVals
  rw [List.getD_eq_getElem?_getD, List.getElem?_eq_getElem hi, Option.getD_some, List.length_take, List.length_drop, this]
  omega

theorem subVals_mem {R : List (List ℝ)} {l : Int} {c : Coord} {x : ℝ} (h : x ∈ subVals R l c) : x ∈ R.flatten := by
  unfold subVals at h
  have h' := List.mem_of_mem_drop (List.mem_of_mem_take h)
  rw [List.getD_eq_getElem?_getD] at h'
  by_cases hi : c.1.toNat < R.length
  · rw [List.getElem?_eq_getElem hi, Option.getD_some] at h'
    exact List.mem_flatten_of_mem (List.getElem_mem hi) h'
  · rw [List.getElem?_eq_none (by omega)] at h'
    cases h'

/-! ## Distances -/

theorem rms_nonneg (a b : List ℝ) : 0 ≤ rms a b := Real.sqrt_nonneg _

theorem equalDist_nonneg {ratio : ℝ} {name : String} {D : List ℝ → List ℝ → ℝ} (hD : EqualDist ratio name D) (a b : List ℝ) : 0 ≤ D a b := by
  cases hD with
  | euclidean => exact rms_nonneg a b
  | dtw => exact div_nonneg (Real.sqrt_nonneg _) (by positivity)

theorem rms_le {a b : List ℝ} {w : ℝ} (hw : 0 ≤ w) (hab : a.length = b.length) (ha : 1 ≤ a.length) (h : ∀ x ∈ a, ∀ y ∈ b, |x - y| ≤ w) : rms a b ≤ w := by
  unfold rms
  have hpos : (0 : ℝ) < a.length := by exact_mod_cast ha
  rw [Real.sqrt_le_left hw, div_le_iff₀ hpos]
  calc ∑ i ∈ Finset.range a.length, (a.getD i 0 - b.getD i 0) ^ 2 ≤ ∑ _i ∈ Finset.range a.length, w ^ 2 := by
        refine Finset.sum_le_sum fun i hi => ?_
        have hi' := Finset.mem_range.mp hi
        rw [List.getD_eq_getElem?_getD, List.getD_eq_getElem?_getD, List.getElem?_eq_getElem hi', List.getElem?_eq_getElem (by omega), Option.getD_some, Option.getD_some]
        exact sq_le_sq' (by have := (abs_le.mp (h _ (List.getElem_mem hi') _ (List.getElem_mem (l := b) (n := i) (by omega)))).1; linarith)
          (abs_le.mp (h _ (List.getElem_mem hi') _ (List.getElem_mem (l := b) (n := i) (by omega)))).2
    _ = w ^ 2 * a.length := by
        rw [Finset.sum_const, Finset.card_range, nsmul_eq_mul, mul_comm]

theorem equalDist_le {ratio : ℝ} {name : String} {D : List ℝ → List ℝ → ℝ} (hD : EqualDist ratio name D) {a b : List ℝ} (hab : a.length = b.length)
    (ha : 1 ≤ a.length) : D a b ≤ rms a b := by
  cases hD with
  | euclidean => exact le_rfl
  | dtw =>
    obtain ⟨w, e, hw⟩ := warped_le_rms ratio a b hab ha
    have hn := rms_nonneg a b
    unfold warped at e
    dsimp only at e
    split at e
    · have e' : warpedIn (bandSize ratio (max a.length b.length)) a b = w := by
        unfold warpedIn
        exact F.fin.inj e
      change warpedIn (bandSize ratio (max a.length b.length)) a b ≤ _
      rw [e']
      refine hw.trans (div_le_self hn ?_)
      have : (1 : ℝ) ≤ Real.sqrt a.length := by
        rw [Real.one_le_sqrt]
        exact_mod_cast ha
      linarith
    · cases e

/-! ## Groups -/

theorem groupsOf_unique {α : Type} {s : GSet α} {l : Int} {ls ls' : LocalSpace α} (h : GroupsOf s l ls) (h' : GroupsOf s l ls') : ls = ls' := by
  obtain ⟨gs, e, e1⟩ := h
  obtain ⟨gs', e', e2⟩ := h'
  rw [e] at e'
  cases e'
  rw [e1, Res.ok.injEq] at e2
  cases e2
  rfl

theorem groupCount_unique {α : Type} {s : GSet α} {l : Int} {k k' : ℕ} (h : GroupCount s l k) (h' : GroupCount s l k') : k = k' := by
  obtain ⟨ls, h1, rfl⟩ := h
  obtain ⟨ls', h2, rfl⟩ := h'
  rw [groupsOf_unique h1 h2]

theorem sum_locals {β : Type} (f : β → Int) (l : List β) : (l.map f).sum = ∑ i ∈ Finset.range l.length, (l[i]?.map f).getD 0 := by
  induction l using List.reverseRecOn with
  | nil => simp
  | append_singleton l a ih =>
    rw [List.map_append, List.sum_append, ih, List.length_append, List.length_singleton, Finset.sum_range_succ]
    congr 1
    · refine Finset.sum_congr rfl fun i hi => ?_
      rw [List.getElem?_append_left (Finset.mem_range.mp hi)]
    · simp

theorem count_total {α : Type} [DataT α] {env : Env α} {name : String} {th : α} {s s' : GSet α} {n : Int} {L : ℕ} (hL : s.ds.itemLength = L)
    (hcnt : 0 ≤ s.ds.itemCount) (h : s.groupAllLengths env name th = (.ok n, s')) {K : ℕ → ℕ} (hK : ∀ l : ℕ, 2 ≤ l → l ≤ L → GroupCount s' l (K l)) :
    n = ((∑ l ∈ Finset.Icc 2 L, K l : ℕ) : Int) := by
  obtain ⟨_, _, _, _, gs, e1, e2, e3⟩ := C37_function_of_data env env rfl name th s s s' s' rfl n n h h
  rw [hL] at e2
  have hlen : gs.locals.length = L + 1 := by
    unfold len at e2
    omega
  obtain ⟨_, hP⟩ := C25_partition env name th s s' n hcnt h
  rw [e3, sum_locals, hlen, Nat.cast_sum]
  have hsub : Finset.Icc 2 L ⊆ Finset.range (L + 1) := by
    intro x hx
    rw [Finset.mem_Icc] at hx
    rw [Finset.mem_range]
    omega
  rw [← Finset.sum_subset hsub]
  · refine Finset.sum_congr rfl fun l hl => ?_
    rw [Finset.mem_Icc] at hl
    obtain ⟨ls, ⟨gs', e4, e5⟩, e6⟩ := hK l hl.1 hl.2
    rw [e1] at e4
    cases e4
    have e7 := (vget_eq_ok.mp e5).2
    rw [Int.toNat_natCast] at e7
    rw [e7, ← e6]
    rfl
  · intro l hl hn
    rw [Finset.mem_range] at hl
    rw [Finset.mem_Icc] at hn
    rw [List.getElem?_eq_getElem (by omega), Option.map_some, Option.getD_some]
    cases e : gs.locals[l]'(by omega) with
    | none => rfl
    | some ls =>
      exfalso
      have := (hP l ls ⟨gs, e1, vget_of_getElem? (by omega) (by rw [Int.toNat_natCast, List.getElem?_eq_getElem (by omega), e])⟩)
      omega

theorem count_exists {α : Type} [DataT α] {env : Env α} {name : String} {th : α} {s s' : GSet α} {n : Int} {L : ℕ} (hL : s.ds.itemLength = L)
    (hcnt : 0 ≤ s.ds.itemCount) (h : s.groupAllLengths env name th = (.ok n, s')) : ∃ K : ℕ → ℕ, ∀ l : ℕ, 2 ≤ l → l ≤ L → GroupCount s' l (K l) := by
  classical
  have key : ∀ l : ℕ, ∃ k, 2 ≤ l → l ≤ L → GroupCount s' l k := by
    intro l
    by_cases hl : 2 ≤ l ∧ l ≤ L
    · obtain ⟨ls, hls⟩ := (C25_partition env name th s s' n hcnt h).1 l (by omega) (by omega)
      exact ⟨_, fun _ _ => ⟨ls, hls, rfl⟩⟩
    · exact ⟨0, fun h1 h2 => absurd ⟨h1, h2⟩ hl⟩
  choose K hK using key
  exact ⟨K, hK⟩

theorem partition_bounds {α : Type} [DataT α] {ds : Dataset α} {l : Int} {ls : LocalSpace α} {M : List (List Coord)} (h : Partition ds l ls M) {cnt L : ℕ}
    (hc : ds.itemCount = cnt) (hL : ds.itemLength = L) (hcnt : 1 ≤ cnt) (lL : l ≤ L) :
    1 ≤ ls.groups.length ∧ ls.groups.length ≤ cnt * (L - l + 1).toNat := by
  rw [← h.card]
  constructor
  · have h0 : ((0, 0) : Coord) ∈ M.flatten := by
      rw [h.all]
      unfold IsSub
      simp only
      omega
    obtain ⟨g, hg, _⟩ := List.mem_flatten.mp h0
    exact List.length_pos_of_mem hg
  · have h1 : M.length ≤ M.flatten.length := by
      rw [List.length_flatten]
      refine le_trans ?_ (List.card_nsmul_le_sum (M.map List.length) 1 ?_)
      · simp
      · intro x hx
        obtain ⟨g, hg, rfl⟩ := List.mem_map.mp hx
        obtain ⟨k, hk, rfl⟩ := List.getElem_of_mem hg
        exact List.length_pos_iff.mpr (h.members k (by rw [← h.card]; exact hk) hk).2.2
    have h2 : M.flatten ⊆ subOrder cnt (L - l + 1).toNat := by
      intro c hcm
      rw [h.all, hc, hL] at hcm
      exact (subOrder_isSub lL).mpr hcm
    have := (h.once.subperm h2).length_le
    rw [subOrder_length] at this
    omega

/-! ## In exact arithmetic -/

theorem sub_ok {s : GSet (F Rounding.exact)} {L : ℕ} {R : List (List ℝ)} (hR : s.ds.Holds L (R.map fins)) {l : ℕ} (lL : l ≤ L) {c : Coord} (hc : c ∈ subOrder R.length ((L : Int) - l + 1).toNat) : (subVals R l c).length = l := by
  rw [subVals_length (L := L) (fun r hr => by simpa using hR.rows (fins r) (List.mem_map_of_mem hr)) ((subOrder_isSub (by omega)).mp hc)]
  omega

section real
variable (env : Env (F Rounding.exact)) (ratio : ℝ) (hratio : env.ratio = F.fin ratio)
  (s s' : GSet (F Rounding.exact)) (L : ℕ) (R : List (List ℝ)) (hR : s.ds.Holds L (R.map fins))
  (h0 : 0 ≤ ratio) (hL : (L : ℝ) * ratio < 2147483648)

include hratio hR h0 hL

theorem count_leader {name : String} {D} (hD : EqualDist ratio name D) {st : ℝ} {n : Int} (h : s.groupAllLengths env name (F.fin st) = (.ok n, s'))
    {l k : ℕ} (l2 : 2 ≤ l) (lL : l ≤ L) (hk : GroupCount s' l k) :
    ∃ G : List (List Coord), G.length = k ∧ Leader (fun c c' => D (subVals R l c) (subVals R l c')) (st / 2) (subOrder R.length ((L : Int) - l + 1).toNat) G := by
  obtain ⟨ls, G, hls, hG, hlen, _⟩ := C59_leader env ratio hratio s s' L R hR h0 hL hD st n h l (by omega) (by omega)
  exact ⟨G, hlen.trans (groupCount_unique ⟨ls, hls, rfl⟩ hk), hG⟩

end real

end Onex
