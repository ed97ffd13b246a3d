import Verif.Proofs.Band

/-!
# `warpedDistance` as a whole
-/

namespace Onex

variable {ρ : Rounding} {a b : List ℝ} {r : ℕ}

/-- The value of `warpedDistance` without dropout, for band `r`. -/
noncomputable def wd (ρ : Rounding) (r : ℕ) (a b : List ℝ) : F ρ :=
  eucNormDtw (lastCell ρ r a b) (len a) (len b)

theorem eucNormDtw_pinf {l1 l2 : Int} (h : 0 ≤ max l1 l2) :
    eucNormDtw (F.pinf : F ρ) l1 l2 = F.pinf := by
  unfold eucNormDtw
  rw [sqrt_pinf, ofInt_F, div_pinf]
  exact_mod_cast (by omega : 0 ≤ 2 * max l1 l2)

theorem eucNormDtw_fin {l1 l2 : Int} {t : ℝ} (ht : 0 ≤ t) (h : 0 < max l1 l2) :
    eucNormDtw (F.fin t : F ρ) l1 l2 =
      F.fin (ρ.f (ρ.f (Real.sqrt t) / ((2 * max l1 l2 : Int) : ℝ))) := by
  unfold eucNormDtw
  rw [sqrt_fin _ ht, ofInt_F, div_fin]
  exact_mod_cast (by omega : 2 * max l1 l2 ≠ 0)

theorem warpedBand_any (hm : 1 ≤ a.length) (hn : 1 ≤ b.length) (dropout : F ρ) :
    (warpedDistanceBand (r : Int) (fins a) (fins b) dropout).Ensures fun v =>
      v = wd ρ r a b ∨ (v = F.pinf ∧ RowAbove ρ r a b (eucInormDtw dropout (len a) (len b))) := by
  by_cases h11 : a.length = 1 ∧ b.length = 1
  · have hx := tsGet_fins (ρ := ρ) (l := a) (i := 0) (by omega)
    have hy := tsGet_fins (ρ := ρ) (l := b) (i := 0) (by omega)
    simp only [Nat.cast_zero] at hx hy
    unfold warpedDistanceBand
    have hc : len (fins a : List (F ρ)) = 1 ∧ len (fins b : List (F ρ)) = 1 := by
      rw [len_fins, len_fins]; simp only [len]; omega
    simp only [hc, and_self, if_true, hx, hy, Res.bind_ok, Res.pure_eq, Res.ensures_ok, euc_fin]
    left
    unfold wd lastCell
    rw [if_pos (Or.inl (by unfold inB; omega)), h11.1, h11.2]
    simp only [len, h11.1, h11.2, Nat.sub_self, Nat.cast_one]
    congr 1
    rw [dp]
    rfl
  · refine (warpedBand_run (r := r) hm hn h11 dropout).mono ?_
    rintro v (h | ⟨h1, h2⟩)
    · exact Or.inl h
    · right
      refine ⟨?_, h2⟩
      rw [h1, eucNormDtw_pinf]
      simp only [len]; omega

theorem eucInormDtw_pinf (hm : 1 ≤ a.length) :
    eucInormDtw (F.pinf : F ρ) (len a) (len b) = F.pinf := by
  unfold eucInormDtw
  have h : 0 < max (len a) (len b) := by simp only [len]; omega
  rw [ofInt_F, mul_pinf, ofInt_F, mul_pinf, mul_pinf_pinf]
  · exact_mod_cast h
  · norm_num

theorem warpedBand_inf (hm : 1 ≤ a.length) (hn : 1 ≤ b.length) :
    warpedDistanceBand (r : Int) (fins a) (fins b) (F.pinf : F ρ) = .ok (wd ρ r a b) := by
  apply Res.Ensures.eq_ok
  refine (warpedBand_any hm hn F.pinf).mono ?_
  rintro v (h | ⟨_, h, _⟩)
  · exact h
  · rw [eucInormDtw_pinf hm, lt_pinf] at h
    cases h

/-- The band used for the two series. -/
noncomputable def rOf (ρ : Rounding) (ratio : ℝ) (a b : List ℝ) : ℕ :=
  bandOf ρ ratio (max a.length b.length)

theorem warped_unfold {ratio : ℝ} (hr : RatioOk ρ ratio (max a.length b.length))
    (hm : 1 ≤ a.length) (dropout : F ρ) :
    warpedDistance (F.fin ratio) (fins a) (fins b) dropout =
      warpedDistanceBand (rOf ρ ratio a b : Int) (fins a) (fins b) dropout := by
  unfold warpedDistance
  rw [len_fins, len_fins, max_len, band_ok hr (by omega)]
  rfl

theorem warped_inf {ratio : ℝ} (hr : RatioOk ρ ratio (max a.length b.length))
    (hm : 1 ≤ a.length) (hn : 1 ≤ b.length) :
    warpedDistance (F.fin ratio) (fins a) (fins b) (F.pinf : F ρ) =
      .ok (wd ρ (rOf ρ ratio a b) a b) := by
  rw [warped_unfold hr hm, warpedBand_inf hm hn]

theorem warped_any {ratio : ℝ} (hr : RatioOk ρ ratio (max a.length b.length))
    (hm : 1 ≤ a.length) (hn : 1 ≤ b.length) (dropout : F ρ) :
    (warpedDistance (F.fin ratio) (fins a) (fins b) dropout).Ensures fun v =>
      v = wd ρ (rOf ρ ratio a b) a b ∨ (v = F.pinf ∧
        RowAbove ρ (rOf ρ ratio a b) a b (eucInormDtw dropout (len a) (len b))) := by
  rw [warped_unfold hr hm]
  exact warpedBand_any hm hn dropout

/-- The cases in which the last cell is finite. -/
def Reached (r : ℕ) (a b : List ℝ) : Prop :=
  inB r (a.length - 1) (b.length - 1) ∨ (a.length = 1 ∧ b.length - 1 < 2 * r + 1) ∨
      (b.length = 1 ∧ a.length - 1 < 2 * r + 1)

/-- The finite value: scaled root of the recurrence. -/
noncomputable def wfin (ρ : Rounding) (r : ℕ) (a b : List ℝ) : ℝ :=
  ρ.f (ρ.f (Real.sqrt (dp ρ (ecost ρ a b) r (a.length - 1) (b.length - 1))) /
    ((2 * max a.length b.length : ℕ) : ℝ))

theorem wd_fin (hm : 1 ≤ a.length) (h : Reached r a b) : wd ρ r a b = F.fin (wfin ρ r a b) := by
  unfold Reached at h
  unfold wd lastCell
  rw [if_pos h, eucNormDtw_fin (dp_nonneg (ecost_ok a b) _ _) (by simp only [len]; omega)]
  unfold wfin
  rw [max_len]
  norm_cast

theorem wd_pinf (h : ¬ Reached r a b) : wd ρ r a b = F.pinf := by
  unfold Reached at h
  unfold wd lastCell
  rw [if_neg h, eucNormDtw_pinf]
  simp only [len]; omega

theorem wfin_nonneg : 0 ≤ wfin ρ r a b :=
  ρ.nonneg (div_nonneg (ρ.nonneg (Real.sqrt_nonneg _)) (Nat.cast_nonneg _))

theorem wd_eq_pinf_iff (hm : 1 ≤ a.length) : wd ρ r a b = F.pinf ↔ ¬ Reached r a b := by
  constructor
  · intro h hr
    rw [wd_fin hm hr] at h
    cases h
  · exact wd_pinf

theorem lastCell_swap : lastCell ρ r a b = lastCell ρ r b a := by
  unfold lastCell
  have h1 : inB r (a.length - 1) (b.length - 1) ↔ inB r (b.length - 1) (a.length - 1) := by
    unfold inB; omega
  have h2 : ecost ρ b a = fun p q => ecost ρ a b q p := by
    funext p q
    exact ed_comm _ _ _
  rw [dp_swap, h2]
  by_cases h : inB r (b.length - 1) (a.length - 1) ∨ (b.length = 1 ∧ a.length - 1 < 2 * r + 1) ∨
      (a.length = 1 ∧ b.length - 1 < 2 * r + 1)
  · rw [if_pos h, if_pos (by tauto)]
  · rw [if_neg h, if_neg (by tauto)]

theorem wd_swap : wd ρ r a b = wd ρ r b a := by
  unfold wd
  rw [lastCell_swap]
  unfold eucNormDtw
  rw [max_comm]

theorem dp_diag_self (i : ℕ) : dp ρ (ecost ρ a a) r i i = 0 := by
  have hle : dp ρ (ecost ρ a a) r i i ≤ 0 := by
    induction i with
    | zero => simp [dp, ecost, ed_self]
    | succ i ih =>
      refine (dp_le_diag i i).trans ?_
      have : ecost ρ a a (i + 1) (i + 1) = 0 := ed_self _ _
      rw [this]
      exact ρ.nonpos (by linarith)
  exact le_antisymm hle (dp_nonneg (ecost_ok a a) i i)

theorem wfin_self : wfin ρ r a a = 0 := by
  unfold wfin
  rw [dp_diag_self]
  simp [ρ.zero]

/-- `wfin` in exact arithmetic. -/
theorem wfin_exact : wfin Rounding.exact r a b =
    Real.sqrt (dp Rounding.exact (ecost Rounding.exact a b) r (a.length - 1) (b.length - 1)) /
    (2 * max (a.length : ℝ) b.length) := by
  unfold wfin
  simp only [Rounding.exact_f]
  push_cast
  rfl

/-- In exact arithmetic, an abandoned comparison was above the dropout. -/
theorem wfin_gt_of_above (hm : 1 ≤ a.length) (d : ℝ)
    (hb : inB r (a.length - 1) (b.length - 1)) (hn : 1 ≤ b.length)
    (h : RowAbove Rounding.exact r a b (eucInormDtw (F.fin d) (len a) (len b))) :
    d < wfin Rounding.exact r a b := by
  obtain ⟨_, i, hi1, hi2, hrow⟩ := h
  obtain ⟨j', hj1, hj2, hj3⟩ := dp_row (ρ := Rounding.exact) (ecost_ok a b) i _ _
    (show i ≤ a.length - 1 by omega) hb
  have h1 := hrow j' (by omega) hj2
  have hD : eucInormDtw (F.fin d : F Rounding.exact) (len a) (len b) =
      F.fin ((d * 2 * max (a.length : ℝ) b.length) ^ 2) := by
    unfold eucInormDtw
    rw [max_len]
    simp [sq]
  rw [hD, lt_fin] at h1
  have h2 := h1.trans_le hj3
  have hpos : 0 < max (a.length : ℝ) b.length := by
    apply lt_max_of_lt_left
    exact_mod_cast hm
  rw [wfin_exact, lt_div_iff₀ (by positivity)]
  apply Real.lt_sqrt_of_sq_lt
  rw [← mul_assoc]
  exact h2

end Onex
