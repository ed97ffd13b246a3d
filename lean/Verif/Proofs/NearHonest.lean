import Verif.Proofs.RelErr
import Verif.Proofs.WarpTriangle

/-!
# Abandoned comparisons under rounding
-/

namespace Onex
open DataT Spec

variable {ρ : Rounding} {u : ℝ} {a b : List ℝ} {r : ℕ}

/-- An abandoned comparison was above the dropout, up to five errors. -/
theorem Spec.RelErr.above (hu : RelErr ρ u) (hm : 1 ≤ a.length) {d : ℝ} (hd : 0 ≤ d)
    (hb : inB r (a.length - 1) (b.length - 1)) (hn : 1 ≤ b.length)
    (h : RowAbove ρ r a b (eucInormDtw (F.fin d) (len a) (len b))) :
    (1 - u) ^ 5 * d ≤ Onex.wfin ρ r a b := by
  obtain ⟨_, i, hi1, hi2, hrow⟩ := h
  obtain ⟨j', hj1, hj2, hj3⟩ := Onex.dp_row (ρ := ρ) (ecost_ok a b) i _ _ (show i ≤ a.length - 1 by omega) hb
  have h1 := hrow j' (by omega) hj2
  have hc : 0 ≤ 1 - u := by linarith [hu.lt_one]
  have hc1 : 1 - u ≤ 1 := by linarith [hu.nonneg]
  set M : ℝ := ((max a.length b.length : ℕ) : ℝ) with hM
  have hMpos : 0 < M := by rw [hM]; exact_mod_cast (show 0 < max a.length b.length by omega)
  have hD : eucInormDtw (F.fin d : F ρ) (len a) (len b) =
      F.fin (ρ.f (ρ.f (ρ.f (d * 2) * M) * ρ.f (ρ.f (d * 2) * M))) := by
    unfold eucInormDtw
    rw [max_len]
    simp [hM]
  rw [hD, lt_fin] at h1
  have h2 := (h1.trans_le hj3).le
  set T := Onex.dp ρ (ecost ρ a b) r (a.length - 1) (b.length - 1) with hT
  have x1 : (1 - u) * (d * 2) ≤ ρ.f (d * 2) := by
    have := (hu.within (show 0 ≤ d * 2 by linarith)).1
    rwa [pow_one] at this
  have x0 : 0 ≤ ρ.f (d * 2) := ρ.nonneg (by linarith)
  have x2 : (1 - u) * (ρ.f (d * 2) * M) ≤ ρ.f (ρ.f (d * 2) * M) := by
    have := (hu.within (mul_nonneg x0 hMpos.le)).1
    rwa [pow_one] at this
  set X := ρ.f (ρ.f (d * 2) * M) with hX
  have x3 : (1 - u) ^ 2 * (2 * M * d) ≤ X := by
    refine le_trans ?_ x2
    have := mul_le_mul_of_nonneg_left (mul_le_mul_of_nonneg_right x1 hMpos.le) hc
    refine le_trans (le_of_eq ?_) this
    ring
  have hX0 : 0 ≤ (1 - u) ^ 2 * (2 * M * d) := by positivity
  have x4 : (1 - u) * (X * X) ≤ ρ.f (X * X) := by
    have := (hu.within (mul_self_nonneg X)).1
    rwa [pow_one] at this
  have x5 : ((1 - u) ^ 3 * (2 * M * d)) ^ 2 ≤ T := by
    refine le_trans ?_ (x4.trans h2)
    have h3 : ((1 - u) ^ 2 * (2 * M * d)) ^ 2 ≤ X * X := by
      rw [← sq]; exact pow_le_pow_left₀ hX0 x3 2
    calc ((1 - u) ^ 3 * (2 * M * d)) ^ 2 = (1 - u) * ((1 - u) * ((1 - u) ^ 2 * (2 * M * d)) ^ 2) := by ring
      _ ≤ 1 * ((1 - u) * ((1 - u) ^ 2 * (2 * M * d)) ^ 2) :=
        mul_le_mul_of_nonneg_right hc1 (mul_nonneg hc (sq_nonneg _))
      _ = (1 - u) * ((1 - u) ^ 2 * (2 * M * d)) ^ 2 := one_mul _
      _ ≤ (1 - u) * (X * X) := mul_le_mul_of_nonneg_left h3 hc
  have x6 : (1 - u) ^ 3 * (2 * M * d) ≤ Real.sqrt T := Real.le_sqrt_of_sq_le x5
  have x7 : (1 - u) * Real.sqrt T ≤ ρ.f (Real.sqrt T) := by
    have := (hu.within (Real.sqrt_nonneg T)).1
    rwa [pow_one] at this
  have hM2 : ((2 * max a.length b.length : ℕ) : ℝ) = 2 * M := by rw [hM]; push_cast; rfl
  unfold Onex.wfin
  rw [← hT, hM2]
  have x8 := (hu.within (div_nonneg (ρ.nonneg (Real.sqrt_nonneg T)) (show 0 ≤ 2 * M by linarith))).1
  rw [pow_one] at x8
  refine le_trans ?_ x8
  have x9 : (1 - u) ^ 4 * d ≤ ρ.f (Real.sqrt T) / (2 * M) := by
    rw [le_div_iff₀ (by linarith)]
    refine le_trans ?_ x7
    refine le_trans (le_of_eq ?_) (mul_le_mul_of_nonneg_left x6 hc)
    ring
  refine le_trans (le_of_eq ?_) (mul_le_mul_of_nonneg_left x9 hc)
  ring

/-- What the cascade abandons is above the dropout, up to a factor. -/
theorem Spec.RelErr.nearHonest (hu : RelErr ρ u) (junk : F ρ) (ratio : ℝ) :
    NearHonest (1 / (1 - u) ^ 5) (cascadeDistance junk (F.fin ratio)) (wrdDom ρ ratio) (wrd ρ ratio) where
  toFaithful := faithful_cascade junk ratio
  one := by
    rw [le_div_iff₀ (pow_pos (by linarith [hu.lt_one]) 5), one_mul]
    exact pow_le_one₀ (by linarith [hu.lt_one]) (by linarith [hu.nonneg])
  near := by
    rintro a b sa sb dropout v sa' sb' ⟨hr, hm, hn⟩ ha hb hrun
    have hp : 0 < (1 - u) ^ 5 := pow_pos (by linarith [hu.lt_one]) 5
    have hp1 : (1 - u) ^ 5 ≤ 1 := pow_le_one₀ (by linarith [hu.lt_one]) (by linarith [hu.nonneg])
    rcases wrd_val (ρ := ρ) ratio a b (by omega) with hW | ⟨w, hw0, hW⟩
    · right
      rw [hW]
      simp [scl]
    rw [hW]
    cases dropout with
    | nan => right; simp
    | ninf => right; simp [scl]
    | pinf =>
      left
      obtain ⟨v', _, _, h1, _, _, _, h2⟩ := (faithful_cascade (ρ := ρ) junk ratio).run a b sa sb F.pinf ⟨hr, hm, hn⟩ ha hb
      rw [hrun, Res.ok.injEq, Prod.mk.injEq] at h1
      rw [h1.1, h2 rfl, hW]
    | fin d =>
      have goal : (1 - u) ^ 5 * d ≤ w → ¬ lt (scl (1 / (1 - u) ^ 5) (F.fin w : F ρ)) (F.fin d) = true := by
        intro h
        rw [lt_iff]
        simp only [scl, F.Lt, not_lt]
        rw [one_div, inv_mul_eq_div, le_div_iff₀ hp]
        linarith
      by_cases hd : d < 0
      · right
        apply goal
        nlinarith
      obtain ⟨v', _, _, W, h1, _, _, h4, h5⟩ := C10_cascade ρ junk ratio a b sa sb ha hb hr (by omega) (by omega) (F.fin d)
      rw [hrun, Res.ok.injEq, Prod.mk.injEq] at h1
      rw [← h1.1, ha.vals, hb.vals] at h5
      rw [ha.vals, hb.vals, warped_inf hr (by omega) (by omega), Res.ok.injEq] at h4
      have hWW : W = F.fin w := h4.symm.trans hW
      rcases h5 with h5 | ⟨_, h5⟩
      · obtain ⟨v'', k1, k2⟩ := warped_any hr (by omega) (by omega) (F.fin d)
        rw [h5, Res.ok.injEq] at k1
        subst k1
        rcases k2 with k2 | ⟨_, k2⟩
        · left
          exact k2.trans hW
        · right
          apply goal
          have hreach : Reached (rOf ρ ratio a b) a b := by
            by_contra hcon
            have := wd_pinf (ρ := ρ) hcon
            rw [show wd ρ (rOf ρ ratio a b) a b = F.fin w from hW] at this
            cases this
          have hin : inB (rOf ρ ratio a b) (a.length - 1) (b.length - 1) := by
            rcases hreach with h | h | h
            · exact h
            · omega
            · omega
          have := wd_fin (ρ := ρ) (by omega) hreach
          rw [show wd ρ (rOf ρ ratio a b) a b = F.fin w from hW, F.fin.injEq] at this
          rw [this]
          exact hu.above (by omega) (not_lt.mp hd) hin (by omega) k2
      · right
        apply goal
        rw [hWW, lt_fin] at h5
        nlinarith [not_lt.mp hd]

/-- The triangle inequality in a given band. -/
theorem warpedIn_triangle (q a y : List ℝ) (hay : a.length = y.length) (hy : 1 ≤ y.length)
    (hne : (warpCosts r q y).Nonempty) :
    warpedIn r q a ≤ warpedIn r q y + Real.sqrt ((2 * r + 1) * y.length) * rms y a / (2 * max (q.length : ℝ) y.length) := by
  have hleast : ∀ b : List ℝ, b.length = y.length → IsLeast (warpCosts r q b) (sInf (warpCosts r q b)) := by
    intro b hb
    have hin : inB r (q.length - 1) (b.length - 1) := by
      rw [hb]
      exact (warpCosts_nonempty q y).mp hne
    have := dp_isLeast q b hin
    rwa [this.csInf_eq]
  obtain ⟨p, hp, hpc⟩ := (hleast y rfl).1
  have hmem : pathCost q a p ∈ warpCosts r q a := ⟨p, by rw [hay]; exact hp, rfl⟩
  have h1 := (hleast a hay).2 hmem
  have h2 := path_triangle q a y hy hp
  rw [hpc] at h2
  unfold warpedIn
  rw [hay, ← add_div]
  exact div_le_div_of_nonneg_right ((Real.sqrt_le_sqrt h1).trans h2) (by positivity)

end Onex
