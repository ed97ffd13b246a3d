import Verif.Proofs.Keogh
import Verif.Props.Warped

/-!
# C09 and C10: the Keogh bound and the cascade of lower bounds
-/

namespace Onex

open Spec DataT

/-- C09: in every rounding, for series of any positive lengths and any dropout, the Keogh bound is
at most the warped distance without dropout. Neither call fails. `SeriesOk s x` says that `s` has the
values `x` and that an envelope cached in it, if there is one, belongs to these values. -/
theorem C09_keogh_lower_bound (ρ : Rounding) (junk : F ρ) (ratio : ℝ) (a b : List ℝ)
    (sa sb : Series (F ρ)) (ha : SeriesOk sa a) (hb : SeriesOk sb b)
    (hr : RatioOk ρ ratio (max a.length b.length)) (hm : 1 ≤ a.length) (hn : 1 ≤ b.length)
    (dropout : F ρ) :
    ∃ lb W sa', keoghLowerBound junk (F.fin ratio) sa sb dropout = .ok (lb, sa') ∧
      warpedDistance (F.fin ratio) sa.vals sb.vals F.pinf = .ok W ∧ le lb W = true ∧
      SeriesOk sa' a := by
  obtain ⟨x, sa', h1, h2, h3, h4⟩ := keogh_spec junk ha hb hr hm hn dropout
  refine ⟨_, _, sa', h1, by rw [ha.vals, hb.vals]; exact warped_inf hr hm hn, ?_, h2⟩
  rcases h4 with h | ⟨y, h, hxy⟩
  · rw [h, le_iff]
    exact Or.inl ((lt_iff _ _).mp (lt_fin_pinf x))
  · rw [h]
    exact (le_fin x y).mpr hxy

/-- A case of C09 in which the bound is positive: `a = [0,0]`, `b = [3,0]`, full band. -/
example : ∃ lb W sa', keoghLowerBound (F.fin 7 : F Rounding.exact) (F.fin 1)
      (Series.mk' (fins [0, 0])) (Series.mk' (fins [3, 0])) F.pinf = .ok (lb, sa') ∧
    warpedDistance (F.fin 1) (Series.mk' (fins [0, 0])).vals (Series.mk' (fins [3, 0])).vals
      (F.pinf : F Rounding.exact) = .ok W ∧ le lb W = true ∧ SeriesOk sa' [0, 0] :=
  C09_keogh_lower_bound _ _ 1 [0, 0] [3, 0] _ _ (seriesOk_mk _) (seriesOk_mk _)
    ⟨by norm_num, by norm_num⟩ (by simp) (by simp) _

/-- C10, in every rounding: the cascade returns what the warped distance with the same dropout
returns, or infinity by a lower bound and then the distance without dropout is above the dropout. -/
theorem C10_cascade (ρ : Rounding) (junk : F ρ) (ratio : ℝ) (a b : List ℝ)
    (sa sb : Series (F ρ)) (ha : SeriesOk sa a) (hb : SeriesOk sb b)
    (hr : RatioOk ρ ratio (max a.length b.length)) (hm : 1 ≤ a.length) (hn : 1 ≤ b.length)
    (dropout : F ρ) :
    ∃ v sa' sb' W, cascadeDistance junk (F.fin ratio) sa sb dropout = .ok (v, sa', sb') ∧
      SeriesOk sa' a ∧ SeriesOk sb' b ∧
      warpedDistance (F.fin ratio) sa.vals sb.vals F.pinf = .ok W ∧
      (warpedDistance (F.fin ratio) sa.vals sb.vals dropout = .ok v ∨
        (v = F.pinf ∧ lt dropout W = true)) := by
  have hW : warpedDistance (F.fin ratio) sa.vals sb.vals F.pinf =
      .ok (wd ρ (rOf ρ ratio a b) a b) := by
    rw [ha.vals, hb.vals]; exact warped_inf hr hm hn
  obtain ⟨x, sa', h1, h2, h3, h4⟩ := keogh_spec junk ha hb hr hm hn dropout
  -- pruning by a bound below the distance
  have prune : ∀ x : ℝ, (wd ρ (rOf ρ ratio a b) a b = F.pinf ∨
      ∃ y, wd ρ (rOf ρ ratio a b) a b = F.fin y ∧ x ≤ y) → lt dropout (F.fin x) = true →
      lt dropout (wd ρ (rOf ρ ratio a b) a b) = true := by
    rintro x hx hlt
    rw [lt_iff] at hlt ⊢
    rcases hx with h | ⟨y, h, hxy⟩
    · rw [h]
      cases dropout <;> simp_all [F.Lt]
    · rw [h]
      cases dropout <;> simp_all [F.Lt]
      linarith
  have up : ∀ x : ℝ, lt dropout (F.fin x) = true → lt dropout (F.pinf : F ρ) = true := by
    intro x h
    rw [lt_iff] at h ⊢
    cases dropout <;> simp_all [F.Lt]
  unfold cascadeDistance crossKeoghLowerBound
  rw [h1]
  simp only [Res.bind_ok]
  by_cases hp : lt dropout (F.fin x) = true
  · have g1 : gt (F.fin x : F ρ) dropout = true := hp
    have g2 : gt (inf : F ρ) dropout = true := up x hp
    rw [if_pos g1]
    refine ⟨inf, sa', sb, _, ?_, h2, hb, hW, Or.inr ⟨inf_F, prune x h4 hp⟩⟩
    simp only [Res.pure_eq, Res.bind_ok, if_pos g2]
  · have g1 : ¬ gt (F.fin x : F ρ) dropout = true := hp
    rw [if_neg g1]
    obtain ⟨x', sb', k1, k2, k3, k4⟩ := keogh_spec junk hb h2 (ratio := ratio)
      (by rw [max_comm]; exact hr) hn hm dropout
    have er : rOf ρ ratio b a = rOf ρ ratio a b := by unfold rOf; rw [max_comm]
    rw [er, wd_swap] at k4
    rw [k1]
    simp only [Res.pure_eq, Res.bind_ok, max_fin]
    by_cases hq : lt dropout (F.fin (max x x')) = true
    · have g2 : gt (F.fin (max x x') : F ρ) dropout = true := hq
      rw [if_pos g2]
      refine ⟨inf, sa', sb', _, rfl, h2, k2, hW, Or.inr ⟨inf_F, prune (max x x') ?_ hq⟩⟩
      rcases h4 with h | ⟨y, h, hy⟩
      · exact Or.inl h
      · rcases k4 with h' | ⟨y', h', hy'⟩
        · exact Or.inl h'
        · have : y' = y := by rw [h] at h'; exact (F.fin_inj.mp h').symm
          subst this
          exact Or.inr ⟨y', h, max_le hy hy'⟩
    · have g2 : ¬ gt (F.fin (max x x') : F ρ) dropout = true := hq
      rw [if_neg g2, h2.vals, k2.vals]
      obtain ⟨v, hv, _⟩ := warped_any hr hm hn dropout
      rw [hv]
      exact ⟨v, sa', sb', _, rfl, h2, k2, hW, Or.inl (by rw [ha.vals, hb.vals]; exact hv)⟩

/-- C10, last sentence: whenever the optimum over warping paths in the band, scaled, is at most the
dropout, the cascade returns it. -/
theorem C10_cascade_exact (junk : F Rounding.exact) (ratio : ℝ) (a b : List ℝ)
    (sa sb : Series (F Rounding.exact)) (ha : SeriesOk sa a) (hb : SeriesOk sb b)
    (hr : RatioFits ratio a b) (hm : 1 ≤ a.length) (hn : 1 ≤ b.length) (d T : ℝ)
    (hT : IsLeast (warpCosts (band ratio a b) a b) T)
    (hd : Real.sqrt T / (2 * max (a.length : ℝ) b.length) ≤ d) :
    ∃ sa' sb', cascadeDistance junk (F.fin ratio) sa sb (F.fin d) =
      .ok (F.fin (Real.sqrt T / (2 * max (a.length : ℝ) b.length)), sa', sb') := by
  obtain ⟨v, sa', sb', W, h1, _, _, h4, h5⟩ :=
    C10_cascade _ junk ratio a b sa sb ha hb hr.ok hm hn (F.fin d)
  have hb' : inB (band ratio a b) (a.length - 1) (b.length - 1) :=
    (warpCosts_nonempty a b).mp ⟨T, hT.1⟩
  have hband : a.length ≤ b.length + band ratio a b ∧ b.length ≤ a.length + band ratio a b := by
    unfold inB at hb'; omega
  obtain ⟨T', hT', hw⟩ := C04_warped_is_optimum ratio a b hr hm hn hband
  have e : T' = T := hT'.unique hT
  subst e
  have hWe : W = F.fin (Real.sqrt T' / (2 * max (a.length : ℝ) b.length)) := by
    rw [ha.vals, hb.vals] at h4
    unfold wdist at hw
    rw [hw] at h4
    exact (Res.ok.inj h4).symm
  refine ⟨sa', sb', ?_⟩
  rw [h1]
  rcases h5 with h5 | ⟨_, h5⟩
  · have := (C06_warped_dropout_partial ratio a b hr hm hn (Or.inr hband) d _ hw).2 _ rfl hd
    unfold wdist at this
    rw [ha.vals, hb.vals, this] at h5
    rw [← Res.ok.inj h5]
  · rw [hWe, lt_fin] at h5
    linarith

/-- A case of C10: two different series within the dropout. -/
example : ∃ T, IsLeast (warpCosts (band 1 [0, 1] [0, 0]) [0, 1] [0, 0]) T ∧
    Real.sqrt T / (2 * max (([0, 1] : List ℝ).length : ℝ) ([0, 0] : List ℝ).length) ≤ Real.sqrt T := by
  obtain ⟨T, h, _⟩ := C04_warped_is_optimum 1 [0, 1] [0, 0] ⟨by norm_num, by norm_num⟩
    (by simp) (by simp) (by simp)
  refine ⟨T, h, ?_⟩
  have := Real.sqrt_nonneg T
  simp
  rw [div_le_iff₀ (by norm_num)]
  nlinarith

end Onex
