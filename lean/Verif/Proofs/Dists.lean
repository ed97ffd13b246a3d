import Verif.Props.Pairwise
import Verif.Props.Keogh

/-!
# What the grouping and matching code may rely on about a distance function

`Faithful`: on series whose cached envelopes are right the function runs, keeps the caches right, and returns
the distance without dropout or infinity.  `Honest`: moreover it returns the distance whenever that is
below the dropout.
-/

namespace Onex
open DataT Spec

variable {ρ : Rounding}

structure Faithful (d : Dist (F ρ)) (dom : List ℝ → List ℝ → Prop) (W : List ℝ → List ℝ → F ρ) :
    Prop where
  run : ∀ (a b : List ℝ) (sa sb : Series (F ρ)) (dropout : F ρ), dom a b → SeriesOk sa a →
    SeriesOk sb b → ∃ v sa' sb', d sa sb dropout = .ok (v, sa', sb') ∧ SeriesOk sa' a ∧
      SeriesOk sb' b ∧ (v = W a b ∨ v = F.pinf) ∧ (dropout = F.pinf → v = W a b)
  val : ∀ a b, dom a b → W a b = F.pinf ∨ ∃ x, 0 ≤ x ∧ W a b = F.fin x

structure Honest (d : Dist (F ρ)) (dom : List ℝ → List ℝ → Prop) (W : List ℝ → List ℝ → F ρ) :
    Prop extends Faithful d dom W where
  below : ∀ (a b : List ℝ) (sa sb : Series (F ρ)) (dropout v : F ρ) (sa' sb' : Series (F ρ)),
    dom a b → SeriesOk sa a → SeriesOk sb b → d sa sb dropout = .ok (v, sa', sb') →
    lt (W a b) dropout = true → v = W a b

/-- A distance times `κ`. -/
noncomputable def scl (κ : ℝ) : F ρ → F ρ
  | .fin x => .fin (κ * x)
  | v => v

/-- As `Honest`, but only if the distance is below the dropout by a factor of `κ`. -/
structure NearHonest (κ : ℝ) (d : Dist (F ρ)) (dom : List ℝ → List ℝ → Prop) (W : List ℝ → List ℝ → F ρ) :
    Prop extends Faithful d dom W where
  one : 1 ≤ κ
  near : ∀ (a b : List ℝ) (sa sb : Series (F ρ)) (dropout v : F ρ) (sa' sb' : Series (F ρ)),
    dom a b → SeriesOk sa a → SeriesOk sb b → d sa sb dropout = .ok (v, sa', sb') →
    v = W a b ∨ ¬ lt (scl κ (W a b)) dropout = true

theorem scl_not_lt {κ : ℝ} (h1 : 1 ≤ κ) {x b : F ρ} (hx : x = F.pinf ∨ ∃ w, 0 ≤ w ∧ x = F.fin w) (h : ¬ lt x b = true) :
    ¬ lt (scl κ x) b = true := by
  rw [lt_iff] at *
  rcases hx with rfl | ⟨w, hw, rfl⟩
  · exact h
  · cases b with
    | fin y =>
      simp only [scl, F.Lt] at h ⊢
      nlinarith
    | nan => exact h
    | ninf => exact h
    | pinf => exact h

/-! ## The Euclidean distance -/

/-- The Euclidean distance the code computes (without dropout). -/
noncomputable def eud (ρ : Rounding) (a b : List ℝ) : ℝ :=
  ρ.f (Real.sqrt (ρ.f (pacc ρ a b a.length / a.length)))

def eudDom (a b : List ℝ) : Prop := a.length = b.length ∧ 0 < a.length

theorem eud_exact (a b : List ℝ) : eud Rounding.exact a b = rms a b := by
  unfold eud rms
  rw [pacc_exact]
  rfl

theorem eud_nonneg (a b : List ℝ) : 0 ≤ eud ρ a b := ρ.nonneg (Real.sqrt_nonneg _)

theorem eud_self (a : List ℝ) : eud ρ a a = 0 := by
  have : ∀ i, pacc ρ a a i = 0 := by
    intro i
    induction i with
    | zero => rfl
    | succ i ih => simp only [pacc, ih, ed_self, add_zero, ρ.zero]
  unfold eud
  rw [this]
  simp [ρ.zero]

theorem pairwise_any (a b : List ℝ) (h : eudDom a b) (dropout : F ρ) :
    ∃ v, pairwiseDistance (fins a) (fins b) dropout = .ok v ∧ (v = F.fin (eud ρ a b) ∨ v = F.pinf) ∧
      (dropout = F.pinf → v = F.fin (eud ρ a b)) := by
  obtain ⟨h1, h2⟩ := h
  have hl : len a = len b := by simp [len, h1]
  have hn : 0 < len b := by simp only [len]; omega
  have he : eucNorm (F.fin (pacc ρ a b a.length) : F ρ) (len a) (len b) = F.fin (eud ρ a b) := by
    rw [hl, eucNorm_fin (pacc_nonneg _ _ _) hn]
    unfold eud
    rw [h1]
    simp [len]
  rw [pairwise_run a b h1 h2]
  refine ⟨_, rfl, ?_, ?_⟩
  · split
    · exact Or.inr rfl
    · exact Or.inl he
  · rintro rfl
    have hd : eucInorm (F.pinf : F ρ) (len a) (len b) = F.pinf := by
      unfold eucInorm
      rw [mul_pinf_pinf, ofInt_F, mul_pinf]
      rw [hl, max_self]
      exact_mod_cast hn
    rw [hd, lt_pinf]
    exact he

theorem faithful_euclid (ratio : F ρ) :
    Faithful (DistName.euclidean.fn ratio) eudDom (fun a b => F.fin (eud ρ a b)) where
  run := by
    intro a b sa sb dropout hdom ha hb
    obtain ⟨v, h1, h2, h3⟩ := pairwise_any a b hdom dropout
    refine ⟨v, sa, sb, ?_, ha, hb, h2, h3⟩
    simp only [DistName.fn, ha.vals, hb.vals, h1, Res.bind_ok]
    rfl
  val := fun a b _ => Or.inr ⟨_, eud_nonneg a b, rfl⟩

theorem honest_euclid (ratio : F Rounding.exact) :
    Honest (DistName.euclidean.fn ratio) eudDom (fun a b => F.fin (eud Rounding.exact a b)) where
  toFaithful := faithful_euclid ratio
  below := by
    intro a b sa sb dropout v sa' sb' hdom ha hb hrun hlt
    obtain ⟨v', k1, k2, k3⟩ := pairwise_any a b hdom dropout
    simp only [DistName.fn, ha.vals, hb.vals, k1, Res.bind_ok, Res.pure_eq, Res.ok.injEq, Prod.mk.injEq] at hrun
    obtain ⟨rfl, _, _⟩ := hrun
    cases dropout with
    | nan => simp at hlt
    | ninf => simp at hlt
    | pinf => exact k3 rfl
    | fin d =>
      rw [lt_fin] at hlt
      have h0 : 0 ≤ d := le_trans (eud_nonneg a b) hlt.le
      have := C02_pairwise_dropout a b hdom.1 hdom.2 d h0
      unfold pd at this
      rw [k1, if_pos (by rw [← eud_exact]; exact hlt.le), Res.ok.injEq] at this
      rw [this, eud_exact]

/-! ## The warped distance and the cascade -/

/-- The warped distance the code computes (without dropout). -/
noncomputable def wrd (ρ : Rounding) (ratio : ℝ) (a b : List ℝ) : F ρ := wd ρ (rOf ρ ratio a b) a b

def wrdDom (ρ : Rounding) (ratio : ℝ) (a b : List ℝ) : Prop :=
  RatioOk ρ ratio (max a.length b.length) ∧ 2 ≤ a.length ∧ 2 ≤ b.length

theorem wrd_val (ratio : ℝ) (a b : List ℝ) (h : 1 ≤ a.length) :
    wrd ρ ratio a b = F.pinf ∨ ∃ x, 0 ≤ x ∧ wrd ρ ratio a b = F.fin x := by
  unfold wrd
  by_cases hr : Reached (rOf ρ ratio a b) a b
  · exact Or.inr ⟨_, wfin_nonneg, wd_fin h hr⟩
  · exact Or.inl (wd_pinf hr)

theorem wrd_comm (ratio : ℝ) (a b : List ℝ) : wrd ρ ratio a b = wrd ρ ratio b a := by
  unfold wrd
  rw [wd_swap]
  unfold rOf
  rw [max_comm]

theorem wrd_self (ratio : ℝ) (a : List ℝ) (h : 1 ≤ a.length) : wrd ρ ratio a a = F.fin 0 := by
  unfold wrd
  rw [wd_fin h (Or.inl (by unfold inB; omega)), wfin_self]

/-- Whether the warped distance is finite depends on the two lengths only. -/
theorem wrd_finite_iff (ratio : ℝ) (a b : List ℝ) (h1 : 2 ≤ a.length) (h2 : 2 ≤ b.length) :
    wrd ρ ratio a b = F.pinf ↔ ¬ (a.length ≤ b.length + bandOf ρ ratio (max a.length b.length) ∧
      b.length ≤ a.length + bandOf ρ ratio (max a.length b.length)) := by
  unfold wrd
  rw [wd_eq_pinf_iff (by omega)]
  have : rOf ρ ratio a b = bandOf ρ ratio (max a.length b.length) := rfl
  rw [this]
  unfold Reached inB
  constructor
  · intro h h'
    exact h (Or.inl (by omega))
  · intro h h'
    rcases h' with h' | h' | h' <;> omega

theorem warpedDistance_cases (ratio : ℝ) (a b : List ℝ) (hr : RatioOk ρ ratio (max a.length b.length))
    (hm : 1 ≤ a.length) (hn : 1 ≤ b.length) (dropout : F ρ) :
    ∃ v, warpedDistance (F.fin ratio) (fins a) (fins b) dropout = .ok v ∧
      (v = wrd ρ ratio a b ∨ v = F.pinf) ∧ (dropout = F.pinf → v = wrd ρ ratio a b) := by
  obtain ⟨v, hv, h⟩ := warped_any hr hm hn dropout
  refine ⟨v, hv, ?_, ?_⟩
  · rcases h with h | h
    · exact Or.inl h
    · exact Or.inr h.1
  · rintro rfl
    rw [warped_inf hr hm hn, Res.ok.injEq] at hv
    exact hv.symm

theorem warped_below (ratio : ℝ) (a b : List ℝ)
    (hr : RatioOk Rounding.exact ratio (max a.length b.length)) (hm : 2 ≤ a.length) (hn : 2 ≤ b.length)
    (dropout : F Rounding.exact) (hlt : lt (wrd Rounding.exact ratio a b) dropout = true) :
    warpedDistance (F.fin ratio) (fins a) (fins b) dropout = .ok (wrd Rounding.exact ratio a b) := by
  have hinf : wdist ratio a b F.pinf = .ok (wrd Rounding.exact ratio a b) :=
    warped_inf hr (by omega) (by omega)
  cases dropout with
  | nan => simp at hlt
  | ninf =>
    rcases wrd_val (ρ := Rounding.exact) ratio a b (by omega) with h | ⟨x, _, h⟩ <;>
      rw [h] at hlt <;> simp at hlt
  | pinf => exact hinf
  | fin d =>
    rcases wrd_val (ρ := Rounding.exact) ratio a b (by omega) with h | ⟨x, _, h⟩
    · rw [h] at hlt
      simp at hlt
    · rw [h, lt_fin] at hlt
      rw [h]
      exact (C06_warped_dropout_partial ratio a b ⟨hr.nonneg, hr.range⟩ (by omega) (by omega)
        (Or.inl ⟨hm, hn⟩) d _ hinf).2 x h hlt.le

theorem faithful_dtw (ratio : ℝ) :
    Faithful (DistName.euclideanDtw.fn (F.fin ratio)) (wrdDom ρ ratio) (wrd ρ ratio) where
  run := by
    rintro a b sa sb dropout ⟨hr, hm, hn⟩ ha hb
    obtain ⟨v, h1, h2, h3⟩ := warpedDistance_cases ratio a b hr (by omega) (by omega) dropout
    refine ⟨v, sa, sb, ?_, ha, hb, h2, h3⟩
    simp only [DistName.fn, ha.vals, hb.vals, h1, Res.bind_ok]
    rfl
  val := fun a b h => wrd_val ratio a b (by have := h.2.1; omega)

theorem honest_dtw (ratio : ℝ) :
    Honest (DistName.euclideanDtw.fn (F.fin ratio)) (wrdDom Rounding.exact ratio)
      (wrd Rounding.exact ratio) where
  toFaithful := faithful_dtw ratio
  below := by
    rintro a b sa sb dropout v sa' sb' ⟨hr, hm, hn⟩ ha hb hrun hlt
    simp only [DistName.fn, ha.vals, hb.vals, warped_below ratio a b hr hm hn dropout hlt, Res.bind_ok,
      Res.pure_eq, Res.ok.injEq, Prod.mk.injEq] at hrun
    exact hrun.1.symm

theorem faithful_cascade (junk : F ρ) (ratio : ℝ) :
    Faithful (cascadeDistance junk (F.fin ratio)) (wrdDom ρ ratio) (wrd ρ ratio) where
  run := by
    rintro a b sa sb dropout ⟨hr, hm, hn⟩ ha hb
    obtain ⟨v, sa', sb', W, h1, h2, h3, h4, h5⟩ :=
      C10_cascade ρ junk ratio a b sa sb ha hb hr (by omega) (by omega) dropout
    obtain ⟨v', k1, k2, k3⟩ := warpedDistance_cases ratio a b hr (by omega) (by omega) dropout
    rw [ha.vals, hb.vals, k1] at h5
    refine ⟨v, sa', sb', h1, h2, h3, ?_, ?_⟩
    · rcases h5 with h5 | h5
      · rw [Res.ok.injEq] at h5
        rw [← h5]
        exact k2
      · exact Or.inr h5.1
    · rintro rfl
      rcases h5 with h5 | h5
      · rw [Res.ok.injEq] at h5
        rw [← h5]
        exact k3 rfl
      · rw [lt_pinf] at h5
        exact absurd h5.2 (by simp)
  val := fun a b h => wrd_val ratio a b (by have := h.2.1; omega)

theorem honest_cascade (junk : F Rounding.exact) (ratio : ℝ) :
    Honest (cascadeDistance junk (F.fin ratio)) (wrdDom Rounding.exact ratio)
      (wrd Rounding.exact ratio) where
  toFaithful := faithful_cascade junk ratio
  below := by
    rintro a b sa sb dropout v sa' sb' ⟨hr, hm, hn⟩ ha hb hrun hlt
    obtain ⟨v', sa'', sb'', W, h1, h2, h3, h4, h5⟩ :=
      C10_cascade Rounding.exact junk ratio a b sa sb ha hb hr (by omega) (by omega) dropout
    rw [hrun, Res.ok.injEq, Prod.mk.injEq] at h1
    rw [← h1.1] at h5
    rw [ha.vals, hb.vals] at h4 h5
    rw [warped_inf hr (by omega) (by omega), Res.ok.injEq] at h4
    rw [warped_below ratio a b hr hm hn dropout hlt, Res.ok.injEq] at h5
    rcases h5 with h5 | ⟨_, h5⟩
    · exact h5.symm
    · exfalso
      have hW : W = wrd Rounding.exact ratio a b := h4.symm
      rw [hW] at h5
      rw [lt_iff] at hlt h5
      rcases wrd_val (ρ := Rounding.exact) ratio a b (by omega) with h | ⟨x, _, h⟩
      · rw [h] at hlt h5
        cases dropout <;> exact hlt
      · rw [h] at hlt h5
        cases dropout with
        | fin d => exact absurd hlt (not_lt.mpr (le_of_lt h5))
        | nan => exact hlt
        | pinf => exact h5
        | ninf => exact hlt

end Onex
