import Verif.Proofs.WarpedDist
import Verif.Proofs.WarpPath
import Verif.Proofs.Pairwise

/-!
# C04 - C08: the warped distance
-/

namespace Onex

open Spec

/-- `warpedDistance` of real-valued series in exact arithmetic. -/
noncomputable abbrev wdist (ratio : ℝ) (a b : List ℝ) (dropout : F Rounding.exact) :
    Res (F Rounding.exact) :=
  warpedDistance (F.fin ratio) (fins a) (fins b) dropout

/-- The band for two series, in the specification's terms. -/
noncomputable abbrev band (ratio : ℝ) (a b : List ℝ) : ℕ :=
  bandSize ratio (max a.length b.length)

/-- The ratio is nonnegative and the band fits an `int`. -/
abbrev RatioFits (ratio : ℝ) (a b : List ℝ) : Prop :=
  0 ≤ ratio ∧ (max a.length b.length : ℕ) * ratio < 2147483648

theorem RatioFits.ok {ratio : ℝ} {a b : List ℝ} (h : RatioFits ratio a b) :
    RatioOk Rounding.exact ratio (max a.length b.length) := ⟨h.1, h.2⟩

/-- C04: whenever the lengths differ by at most the band, the warped distance is the scaled root of
the least total squared difference over all warping paths inside the band. -/
theorem C04_warped_is_optimum (ratio : ℝ) (a b : List ℝ) (hr : RatioFits ratio a b)
    (hm : 1 ≤ a.length) (hn : 1 ≤ b.length)
    (hband : a.length ≤ b.length + band ratio a b ∧ b.length ≤ a.length + band ratio a b) :
    ∃ T : ℝ, IsLeast (warpCosts (band ratio a b) a b) T ∧
      wdist ratio a b F.pinf =
        .ok (F.fin (Real.sqrt T / (2 * max (a.length : ℝ) b.length))) := by
  have hb : inB (band ratio a b) (a.length - 1) (b.length - 1) := by unfold inB; omega
  refine ⟨_, dp_isLeast a b hb, ?_⟩
  unfold wdist
  rw [warped_inf hr.ok hm hn]
  have e : rOf Rounding.exact ratio a b = band ratio a b := rfl
  rw [e, wd_fin hm (Or.inl hb), wfin_exact]

/-- A case of C04: lengths 2 and 3, full band, least path cost 1. -/
example : ∃ T : ℝ, IsLeast (warpCosts (band 1 [0, 0] [0, 1, 0]) [0, 0] [0, 1, 0]) T ∧
    wdist 1 [0, 0] [0, 1, 0] F.pinf = .ok (F.fin (Real.sqrt T / (2 * max (2 : ℕ) (3 : ℕ)))) := by
  have hb : band 1 [0, 0] [0, 1, 0] = 2 := by
    simp [band, bandSize]
  obtain ⟨T, h1, h2⟩ := C04_warped_is_optimum 1 [0, 0] [0, 1, 0] ⟨by norm_num, by norm_num⟩
    (by simp) (by simp) (by rw [hb]; simp)
  exact ⟨T, h1, by rw [h2]; norm_num⟩

/-- C05, for two series of at least two points (or one point each): the result is infinite exactly
when the lengths differ by more than the band, which is when no warping path fits the band. It is
never undefined behaviour or an exception, for series of any positive length. -/
theorem C05_warped_infinite_partial (ratio : ℝ) (a b : List ℝ) (hr : RatioFits ratio a b)
    (hm : 1 ≤ a.length) (hn : 1 ≤ b.length) :
    (∃ v, wdist ratio a b F.pinf = .ok v) ∧
    ((2 ≤ a.length ∧ 2 ≤ b.length) ∨ (a.length = 1 ∧ b.length = 1) →
      (wdist ratio a b F.pinf = .ok F.pinf ↔
        (b.length + band ratio a b < a.length ∨ a.length + band ratio a b < b.length)) ∧
      (wdist ratio a b F.pinf = .ok F.pinf ↔ ¬ (warpCosts (band ratio a b) a b).Nonempty)) := by
  have hw : wdist ratio a b F.pinf = .ok (wd Rounding.exact (band ratio a b) a b) :=
    warped_inf hr.ok hm hn
  refine ⟨⟨_, hw⟩, ?_⟩
  intro hlen
  have key : wdist ratio a b F.pinf = .ok F.pinf ↔ ¬ inB (band ratio a b) (a.length - 1) (b.length - 1) := by
    rw [hw, Res.ok.injEq, wd_eq_pinf_iff hm]
    unfold Reached
    constructor
    · intro h hb
      exact h (Or.inl hb)
    · rintro h (hb | hb | hb)
      · exact h hb
      · apply h; unfold inB; omega
      · apply h; unfold inB; omega
  constructor
  · rw [key]
    unfold inB
    omega
  · rw [key, warpCosts_nonempty]

/-- C05 is false when exactly one of the series has a single point: with ratio 0.6 the band for
length 3 is 1, no warping path from 1 to 3 points fits, and yet the result is 0. -/
theorem C05_warped_infinite_counterexample :
    ∃ (ratio : ℝ) (a b : List ℝ), RatioFits ratio a b ∧ 1 ≤ a.length ∧ 1 ≤ b.length ∧
      a.length + band ratio a b < b.length ∧ ¬ (warpCosts (band ratio a b) a b).Nonempty ∧
      wdist ratio a b F.pinf = .ok (F.fin 0) := by
  have hb : band 0.6 [0] [0, 0, 0] = 1 := by
    simp only [band, bandSize, List.length_cons, List.length_nil]
    have h : ⌊(9 / 5 : ℝ)⌋₊ = 1 := by
      rw [Nat.floor_eq_iff (by norm_num)]
      norm_num
    norm_num [h]
  have hr : RatioFits 0.6 [0] [0, 0, 0] := ⟨by norm_num, by norm_num⟩
  refine ⟨0.6, [0], [0, 0, 0], hr, by simp, by simp, by rw [hb]; simp, ?_, ?_⟩
  · rw [warpCosts_nonempty, hb]
    simp [inB]
  · unfold wdist
    rw [warped_inf hr.ok (by simp) (by simp)]
    have e : rOf Rounding.exact 0.6 [0] [0, 0, 0] = 1 := hb
    rw [e, wd_fin (by simp) (Or.inr (Or.inl (by simp))), wfin_exact]
    simp [dp, ecost, ed]

/-- C06, for series that fit the band or have at least two points each: with a dropout `d ≥ 0` the
result is the distance without dropout or infinity, and the former whenever that distance is at most
`d`. -/
theorem C06_warped_dropout_partial (ratio : ℝ) (a b : List ℝ) (hr : RatioFits ratio a b)
    (hm : 1 ≤ a.length) (hn : 1 ≤ b.length)
    (hlen : (2 ≤ a.length ∧ 2 ≤ b.length) ∨
      (a.length ≤ b.length + band ratio a b ∧ b.length ≤ a.length + band ratio a b))
    (d : ℝ) (D : F Rounding.exact)
    (hD : wdist ratio a b F.pinf = .ok D) :
    (wdist ratio a b (F.fin d) = .ok D ∨ wdist ratio a b (F.fin d) = .ok F.pinf) ∧
    (∀ x, D = F.fin x → x ≤ d → wdist ratio a b (F.fin d) = .ok (F.fin x)) := by
  have hw : wdist ratio a b F.pinf = .ok (wd Rounding.exact (band ratio a b) a b) :=
    warped_inf hr.ok hm hn
  have hDe : D = wd Rounding.exact (band ratio a b) a b := by
    rw [hw] at hD
    exact (Res.ok.inj hD).symm
  obtain ⟨v, hv, hv2⟩ := warped_any hr.ok hm hn (F.fin d)
  have hv' : wdist ratio a b (F.fin d) = .ok v := hv
  have e : rOf Rounding.exact ratio a b = band ratio a b := rfl
  rw [e] at hv2
  constructor
  · rcases hv2 with h | ⟨h, _⟩
    · left; rw [hv', h, hDe]
    · right; rw [hv', h]
  · intro x hx hxd
    rcases hv2 with h | ⟨h, habove⟩
    · rw [hv', h, ← hDe, hx]
    · exfalso
      have hreach : Reached (band ratio a b) a b := by
        by_contra hn
        rw [wd_pinf hn] at hDe
        rw [hDe] at hx
        cases hx
      have hb : inB (band ratio a b) (a.length - 1) (b.length - 1) := by
        rcases hreach with h | h | h
        · exact h
        · unfold inB; omega
        · unfold inB; omega
      have := wfin_gt_of_above hm d hb hn habove
      rw [wd_fin hm hreach, hx] at hDe
      have := F.fin_inj.mp hDe
      linarith

/-- The first half of C06 for every rounding, every dropout (also NaN, infinite or negative) and
series of any positive length: abandoning never alters a finite answer. -/
theorem C06_warped_dropout_rounded (ρ : Rounding) (ratio : ℝ) (a b : List ℝ)
    (hr : RatioOk ρ ratio (max a.length b.length)) (hm : 1 ≤ a.length) (hn : 1 ≤ b.length)
    (dropout : F ρ) :
    warpedDistance (F.fin ratio) (fins a) (fins b) dropout =
        warpedDistance (F.fin ratio) (fins a) (fins b) F.pinf ∨
    warpedDistance (F.fin ratio) (fins a) (fins b) dropout = .ok F.pinf := by
  rw [warped_inf hr hm hn]
  obtain ⟨v, hv, h | ⟨h, _⟩⟩ := warped_any hr hm hn dropout
  · left; rw [hv, h]
  · right; rw [hv, h]

/-- A case of C06: the distance is 0, so it is returned although the dropout is 0 too. -/
example : wdist 0 [1, 2] [1, 2] (F.fin 0) = .ok (F.fin 0) := by
  have hr : RatioFits 0 [1, 2] [1, 2] := ⟨le_refl _, by norm_num⟩
  have hD : wdist 0 [1, 2] [1, 2] F.pinf = .ok (F.fin 0) := by
    unfold wdist
    rw [warped_inf hr.ok (by simp) (by simp), wd_fin (by simp) (Or.inl (by simp [inB])), wfin_self]
  exact (C06_warped_dropout_partial 0 _ _ hr (by simp) (by simp) (Or.inl (by simp)) 0 _ hD).2 0 rfl
    (le_refl _)

/-- C06 is false when exactly one series has a single point and does not fit the band: the distance
without dropout is 0, and with dropout 1 it is infinite. -/
theorem C06_warped_dropout_counterexample :
    ∃ (ratio : ℝ) (a b : List ℝ), RatioFits ratio a b ∧ 1 ≤ a.length ∧ 1 ≤ b.length ∧
      wdist ratio a b F.pinf = .ok (F.fin 0) ∧ wdist ratio a b (F.fin 1) = .ok F.pinf := by
  have hb : band 0.6 [0, 0, 0] [0] = 1 := by
    simp only [band, bandSize, List.length_cons, List.length_nil]
    have h : ⌊(9 / 5 : ℝ)⌋₊ = 1 := by
      rw [Nat.floor_eq_iff (by norm_num)]
      norm_num
    norm_num [h]
  have hr : RatioFits 0.6 [0, 0, 0] [0] := ⟨by norm_num, by norm_num⟩
  refine ⟨0.6, [0, 0, 0], [0], hr, by simp, by simp, ?_, ?_⟩
  · unfold wdist
    rw [warped_inf hr.ok (by simp) (by simp)]
    have e : rOf Rounding.exact 0.6 [0, 0, 0] [0] = 1 := hb
    rw [e, wd_fin (by simp) (Or.inr (Or.inr (by simp))), wfin_exact]
    simp [dp, ecost, ed]
  · unfold wdist
    rw [warped_unfold hr.ok (by simp)]
    have e : rOf Rounding.exact 0.6 [0, 0, 0] [0] = 1 := hb
    rw [e]
    simp [warpedDistanceBand, fins, warpedRow, warpedCell, forInt, forIntGo, forBrk, forBrkGo, mget, mset, vget,
      vset, tsGet, len, eucInormDtw, DataT.gt, inf_F, DataT.min, euc, lt_fin_eq]
    norm_num
    exact eucNormDtw_pinf (by norm_num)

/-- C07: nonnegative, symmetric and 0 on identical series; for every rounding, every band and all
positive lengths. -/
theorem C07_warped_laws (ρ : Rounding) (ratio : ℝ) (a b : List ℝ)
    (hr : RatioOk ρ ratio (max a.length b.length)) (hm : 1 ≤ a.length) (hn : 1 ≤ b.length) :
    (∃ D, warpedDistance (F.fin ratio) (fins a) (fins b) (F.pinf : F ρ) = .ok D ∧
      warpedDistance (F.fin ratio) (fins b) (fins a) (F.pinf : F ρ) = .ok D ∧
      (D = F.pinf ∨ ∃ x, 0 ≤ x ∧ D = F.fin x)) ∧
    (a = b → warpedDistance (F.fin ratio) (fins a) (fins b) (F.pinf : F ρ) = .ok (F.fin 0)) := by
  refine ⟨⟨_, warped_inf hr hm hn, ?_, ?_⟩, ?_⟩
  · rw [warped_inf (by rwa [max_comm]) hn hm]
    have : rOf ρ ratio b a = rOf ρ ratio a b := by unfold rOf; rw [max_comm]
    rw [this, wd_swap]
  · by_cases h : Reached (rOf ρ ratio a b) a b
    · right
      exact ⟨_, wfin_nonneg, wd_fin hm h⟩
    · left
      exact wd_pinf h
  · rintro rfl
    rw [warped_inf hr hm hn, wd_fin hm (Or.inl (by unfold inB; omega)), wfin_self]

example : RatioOk Rounding.exact 0.5 (max [1, 2, 3].length [4, 5].length) ∧
    1 ≤ [1, 2, 3].length ∧ 1 ≤ [4, 5].length :=
  ⟨⟨by norm_num, by norm_num⟩, by simp, by simp⟩

/-- Along the diagonal the recurrence never exceeds the pairwise running total. -/
theorem dp_diag_le_pacc (ρ : Rounding) (a b : List ℝ) (r i : ℕ) :
    dp ρ (ecost ρ a b) r i i ≤ pacc ρ a b (i + 1) := by
  induction i with
  | zero =>
    simp only [dp, pacc, zero_add]
    rw [show ecost ρ a b 0 0 = ed ρ (a.getD 0 0) (b.getD 0 0) from rfl, ed_fix]
  | succ i ih =>
    refine (dp_le_diag i i).trans ?_
    rw [pacc]
    apply ρ.mono
    have : ecost ρ a b (i + 1) (i + 1) = ed ρ (a.getD (i + 1) 0) (b.getD (i + 1) 0) := rfl
    rw [this]
    linarith

/-- C08: for series of the same length the warped distance is at most the Euclidean distance. -/
theorem C08_warped_le_pairwise (ratio : ℝ) (a b : List ℝ) (hr : RatioFits ratio a b)
    (hlen : a.length = b.length) (hm : 1 ≤ a.length) :
    ∃ w e : ℝ, wdist ratio a b F.pinf = .ok (F.fin w) ∧
      pairwiseDistance (fins a) (fins b) (F.pinf : F Rounding.exact) = .ok (F.fin e) ∧ w ≤ e := by
  have hn : 1 ≤ b.length := by omega
  have hb : inB (band ratio a b) (a.length - 1) (b.length - 1) := by unfold inB; omega
  have hw : wdist ratio a b F.pinf = .ok (F.fin (wfin Rounding.exact (band ratio a b) a b)) := by
    rw [← wd_fin hm (Or.inl hb)]
    exact warped_inf hr.ok hm hn
  refine ⟨_, Real.sqrt (pacc Rounding.exact a b a.length / a.length), hw, ?_, ?_⟩
  · rw [pairwise_run a b hlen hm]
    have hl : len a = len b := by simp [len, hlen]
    have hn' : 0 < len b := by simp only [len]; omega
    have hd : eucInorm (F.pinf : F Rounding.exact) (len a) (len b) = F.pinf := by
      unfold eucInorm
      rw [mul_pinf_pinf, hl, max_self, ofInt_F, mul_pinf]
      exact_mod_cast hn'
    rw [hd, lt_pinf, hl, eucNorm_fin (pacc_nonneg a b _) hn']
    simp [len, hlen]
  · rw [wfin_exact, ← hlen, max_self]
    have hpos : (1 : ℝ) ≤ a.length := by exact_mod_cast hm
    rw [div_le_iff₀ (by positivity), Real.sqrt_div' _ (by positivity)]
    have h1 : Real.sqrt (dp Rounding.exact (ecost Rounding.exact a b) (band ratio a b) (a.length - 1)
        (a.length - 1)) ≤ Real.sqrt (pacc Rounding.exact a b a.length) := by
      apply Real.sqrt_le_sqrt
      have := dp_diag_le_pacc Rounding.exact a b (band ratio a b) (a.length - 1)
      rwa [Nat.sub_add_cancel hm] at this
    have h2 : Real.sqrt (a.length : ℝ) ≤ a.length := by
      rw [Real.sqrt_le_left (by positivity)]
      nlinarith
    have h3 : 0 < Real.sqrt (a.length : ℝ) := Real.sqrt_pos.mpr (by linarith)
    have h4 := Real.sqrt_nonneg (pacc Rounding.exact a b a.length)
    refine h1.trans ?_
    rw [div_mul_eq_mul_div, le_div_iff₀ h3]
    nlinarith

example : RatioFits 0.1 [1, 5, 2] [2, 2, 2] ∧ [1, 5, 2].length = [2, 2, 2].length :=
  ⟨⟨by norm_num, by norm_num⟩, by simp⟩

end Onex
