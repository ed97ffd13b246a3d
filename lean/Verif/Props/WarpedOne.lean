import Verif.Proofs.WarpedOne

/-!
# C05 and C06 with a series of one point: exactly when they are true
-/

namespace Onex
open DataT Spec

/-- C05: the distance between a single point and a longer series, in either order. Up to twice the band and one point it is the scaled root of
the sum of all squared differences, whether or not a warping path fits the band; beyond that it is infinite. -/
theorem C05_one_point (ratio x : ℝ) (b : List ℝ) (hr : RatioFits ratio [x] b) (hn : 2 ≤ b.length) :
    (b.length ≤ 2 * band ratio [x] b + 1 →
      wdist ratio [x] b F.pinf = .ok (F.fin (Real.sqrt (b.map fun y => (x - y) ^ 2).sum / (2 * b.length))) ∧
      wdist ratio b [x] F.pinf = .ok (F.fin (Real.sqrt (b.map fun y => (x - y) ^ 2).sum / (2 * b.length)))) ∧
    (2 * band ratio [x] b + 1 < b.length → wdist ratio [x] b F.pinf = .ok F.pinf ∧ wdist ratio b [x] F.pinf = .ok F.pinf) := by
  have hr' : RatioFits ratio b [x] := by
    unfold RatioFits at hr ⊢
    rwa [max_comm]
  have h1 : wdist ratio [x] b F.pinf = .ok (wd Rounding.exact (band ratio [x] b) [x] b) := warped_inf hr.ok le_rfl (by omega)
  have h2 : wdist ratio b [x] F.pinf = .ok (wd Rounding.exact (band ratio [x] b) [x] b) := by
    have : wdist ratio b [x] F.pinf = .ok (wd Rounding.exact (band ratio b [x]) b [x]) := warped_inf hr'.ok (by omega) le_rfl
    rw [this, wd_swap]
    unfold band
    rw [max_comm]
  rw [h1, h2]
  constructor
  · intro h
    rw [wd_fin le_rfl (.inr (.inl ⟨rfl, by omega⟩)), wfin_one _ _ _ (by omega)]
    exact ⟨rfl, rfl⟩
  · intro h
    rw [wd_pinf]
    · exact ⟨rfl, rfl⟩
    · unfold Reached inB
      simp only [List.length_singleton]
      omega

/-- C05: exactly when it is true. The distance is infinite just when no warping path fits the band, unless one series has a single point and
the other more than the band and one, and at most twice the band and one. -/
theorem C05_exactly (ratio : ℝ) (a b : List ℝ) (hr : RatioFits ratio a b) (hm : 1 ≤ a.length) (hn : 1 ≤ b.length) :
    (wdist ratio a b F.pinf = .ok F.pinf ↔ ¬ (warpCosts (band ratio a b) a b).Nonempty) ↔
    ¬ (min a.length b.length = 1 ∧ band ratio a b + 1 < max a.length b.length ∧ max a.length b.length ≤ 2 * band ratio a b + 1) := by
  have hw : wdist ratio a b F.pinf = .ok (wd Rounding.exact (band ratio a b) a b) := warped_inf hr.ok hm hn
  rw [hw, Res.ok.injEq, wd_eq_pinf_iff hm, warpCosts_nonempty]
  unfold Reached inB
  generalize band ratio a b = r
  omega

/-- C06: the dropout has no effect if the first series has a single point; under every rounding. -/
theorem C06_one_point {ρ : Rounding} (ratio x : F ρ) (b : List (F ρ)) (dropout : F ρ) :
    warpedDistance ratio [x] b dropout = warpedDistance ratio [x] b F.pinf :=
  one_left ratio x b dropout F.pinf

/-- C06: if the second series has a single point and the first more than the band and one, every finite dropout gives infinity. -/
theorem C06_one_point_right (ratio x : ℝ) (a : List ℝ) (hr : RatioFits ratio a [x]) (ha : band ratio a [x] + 1 < a.length) (d : ℝ) :
    wdist ratio a [x] (F.fin d) = .ok F.pinf := by
  have hm : 1 ≤ a.length := by omega
  have ha' : rOf Rounding.exact ratio a [x] + 1 < a.length := ha
  obtain ⟨v, hv, _⟩ := warped_any (b := [x]) hr.ok hm le_rfl (F.fin d)
  unfold wdist
  rw [hv]
  rw [warped_unfold hr.ok hm] at hv
  have := one_right (r := rOf Rounding.exact ratio a [x]) (a := fins a) (by simpa using ha') (F.fin x) (F.fin d) (by
    unfold eucInormDtw
    simp) hv
  rw [this]

/-- C06: exactly when it is true. With a dropout the result is the distance or infinity, and it is the distance if that is at most the dropout,
unless the second series has a single point and the first more than the band and one, and at most twice the band and one. -/
theorem C06_exactly (ratio : ℝ) (a b : List ℝ) (hr : RatioFits ratio a b) (hm : 1 ≤ a.length) (hn : 1 ≤ b.length) (D : F Rounding.exact)
    (hD : wdist ratio a b F.pinf = .ok D) :
    (∀ d : ℝ, (wdist ratio a b (F.fin d) = .ok D ∨ wdist ratio a b (F.fin d) = .ok F.pinf) ∧
      ∀ x, D = F.fin x → x ≤ d → wdist ratio a b (F.fin d) = .ok (F.fin x)) ↔
    ¬ (b.length = 1 ∧ band ratio a b + 1 < a.length ∧ a.length ≤ 2 * band ratio a b + 1) := by
  have hw : wdist ratio a b F.pinf = .ok (wd Rounding.exact (band ratio a b) a b) := warped_inf hr.ok hm hn
  have hDw : D = wd Rounding.exact (band ratio a b) a b := by
    rw [hw, Res.ok.injEq] at hD
    exact hD.symm
  constructor
  · rintro h ⟨hb, h1, h2⟩
    obtain ⟨x, rfl⟩ := List.length_eq_one_iff.mp hb
    have hfin : D = F.fin (wfin Rounding.exact (band ratio a [x]) a [x]) := by
      rw [hDw]
      exact wd_fin hm (.inr (.inr ⟨rfl, by omega⟩))
    have := (h _).2 _ hfin le_rfl
    rw [C06_one_point_right ratio x a hr h1] at this
    simp at this
  · intro h d
    by_cases ha : a.length = 1
    · obtain ⟨x, rfl⟩ := List.length_eq_one_iff.mp ha
      have e : wdist ratio [x] b (F.fin d) = .ok D := by
        rw [← hD]
        exact one_left _ _ _ _ _
      exact ⟨.inl e, fun y hy _ => by rw [e, hy]⟩
    · by_cases hlen : (2 ≤ a.length ∧ 2 ≤ b.length) ∨ (a.length ≤ b.length + band ratio a b ∧ b.length ≤ a.length + band ratio a b)
      · exact C06_warped_dropout_partial ratio a b hr hm hn hlen d D hD
      · have hinf : D = F.pinf := by
          rw [hDw, wd_pinf]
          unfold Reached inB
          have hle : band ratio a b ≤ max a.length b.length - 1 := min_le_right _ _
          omega
        refine ⟨?_, fun x hx => by rw [hinf] at hx; simp at hx⟩
        have := C06_warped_dropout_rounded Rounding.exact ratio a b hr.ok hm hn (F.fin d)
        unfold wdist at hD ⊢
        rw [hD] at this
        exact this

/-- The band is 1 for a ratio of 0.6 and three points, so three points are within twice the band and one, but not within the band. -/
theorem band_example : band 0.6 [1, 2, 3] [0] = 1 := by
  unfold band bandSize
  have : ⌊((max [1, 2, 3].length [0].length : ℕ) : ℝ) * 0.6⌋₊ = 1 := by
    rw [Nat.floor_eq_iff (by norm_num)]
    norm_num
  simp only [List.length_cons, List.length_nil] at this ⊢
  rw [this]
  rfl

/-- `1 2 3` and `0`, ratio 0.6: root of 14 over 6, but infinite with the dropout 100. -/
example : wdist 0.6 [1, 2, 3] [0] F.pinf = .ok (F.fin (Real.sqrt 14 / 6)) ∧ wdist 0.6 [1, 2, 3] [0] (F.fin 100) = .ok F.pinf := by
  have hr : RatioFits 0.6 [1, 2, 3] [0] := by
    unfold RatioFits
    norm_num
  have hr' : RatioFits 0.6 [0] [1, 2, 3] := by
    unfold RatioFits
    norm_num
  have hb : band 0.6 [0] [1, 2, 3] = 1 := by
    refine Eq.trans ?_ band_example
    unfold band
    rw [max_comm]
  constructor
  · have := ((C05_one_point 0.6 0 [1, 2, 3] hr' (by simp)).1 (by rw [hb]; simp)).2
    rw [this]
    norm_num
  · exact C06_one_point_right 0.6 0 [1, 2, 3] hr (by rw [band_example]; simp) 100

end Onex
