import Verif.Proofs.Pairwise

/-!
# C01, C02, C03: the Euclidean distance
-/

namespace Onex

/-- `pairwiseDistance` of real-valued series in exact arithmetic. -/
noncomputable abbrev pd (x y : List ℝ) (dropout : F Rounding.exact) : Res (F Rounding.exact) :=
  pairwiseDistance (fins x) (fins y) dropout

/-- C01: with no dropout the result is the root mean square difference. -/
theorem C01_pairwise_is_rms (x y : List ℝ) (hlen : x.length = y.length) (hpos : 0 < x.length) :
    pd x y F.pinf = .ok (F.fin (Spec.rms x y)) := by
  unfold pd
  rw [pairwise_run x y hlen hpos]
  have hl : len x = len y := by simp [len, hlen]
  have hn : 0 < len y := by simp only [len]; omega
  have hd : eucInorm (F.pinf : F Rounding.exact) (len x) (len y) = F.pinf := by
    unfold eucInorm
    rw [mul_pinf_pinf, hl, max_self, ofInt_F, mul_pinf]
    exact_mod_cast hn
  rw [hd, lt_pinf, hl, eucNorm_fin (pacc_nonneg x y _) hn, pacc_exact]
  simp [Spec.rms, len, hlen]

/-- C01, error case: different lengths throw, whatever the values, the dropout and the number
type. -/
theorem C01_pairwise_length_mismatch {α : Type} [DataT α] (x y : List α) (d : α)
    (h : x.length ≠ y.length) :
    pairwiseDistance x y d =
      .throw (.onex "Two time series must have the same length for pairwise distance") := by
  unfold pairwiseDistance
  have : len x ≠ len y := by simpa [len] using h
  simp [this]

example : pd [0, 0] [3, 3] F.pinf = .ok (F.fin 3) := by
  rw [C01_pairwise_is_rms _ _ (by simp) (by simp)]
  have : Spec.rms [0, 0] [3, 3] = 3 := by
    unfold Spec.rms
    rw [show (3 : ℝ) = Real.sqrt (3 ^ 2) from (Real.sqrt_sq (by norm_num)).symm]
    congr 1
    norm_num [Finset.sum_range_succ]
  rw [this]

example : pd [0] [0, 0] (F.fin 1) =
    .throw (.onex "Two time series must have the same length for pairwise distance") :=
  C01_pairwise_length_mismatch _ _ _ (by simp)

/-- C02: with a dropout `d ≥ 0` the result is the true distance when that is at most `d`, and
infinity otherwise. -/
theorem C02_pairwise_dropout (x y : List ℝ) (hlen : x.length = y.length) (hpos : 0 < x.length)
    (d : ℝ) (hd : 0 ≤ d) :
    pd x y (F.fin d) = .ok (if Spec.rms x y ≤ d then F.fin (Spec.rms x y) else F.pinf) := by
  unfold pd
  rw [pairwise_run x y hlen hpos]
  have hl : len x = len y := by simp [len, hlen]
  have hn : 0 < len y := by simp only [len]; omega
  have hn' : (0 : ℝ) < (x.length : ℝ) := by exact_mod_cast hpos
  have hD : eucInorm (F.fin d : F Rounding.exact) (len x) (len y) = F.fin (d ^ 2 * x.length) := by
    unfold eucInorm
    rw [hl, max_self, ofInt_F, mul_fin, mul_fin]
    simp [len, hlen, sq]
  rw [hD, hl, eucNorm_fin (pacc_nonneg x y _) hn, pacc_exact]
  have key : Spec.rms x y ≤ d ↔
      ∑ i ∈ Finset.range x.length, (x.getD i 0 - y.getD i 0) ^ 2 ≤ d ^ 2 * x.length := by
    unfold Spec.rms
    rw [Real.sqrt_le_left hd, div_le_iff₀ hn']
  by_cases h : Spec.rms x y ≤ d
  · have h' := key.mp h
    rw [if_pos h, if_neg (by simpa using h')]
    simp [Spec.rms, len, hlen]
  · have h' := mt key.mpr h
    rw [if_neg h, if_pos (by simpa using h')]

/-- C02 under any rounding: the result is either infinite or exactly what it is without dropout,
so abandoning never alters a finite answer. -/
theorem C02_pairwise_dropout_rounded (ρ : Rounding) (x y : List ℝ) (hlen : x.length = y.length)
    (hpos : 0 < x.length) (dropout : F ρ) :
    pairwiseDistance (fins x) (fins y) dropout = .ok F.pinf ∨
    pairwiseDistance (fins x) (fins y) dropout = pairwiseDistance (fins x) (fins y) F.pinf := by
  rw [pairwise_run x y hlen hpos, pairwise_run x y hlen hpos]
  have hl : len x = len y := by simp [len, hlen]
  have hn : 0 < len y := by simp only [len]; omega
  have hd : eucInorm (F.pinf : F ρ) (len x) (len y) = F.pinf := by
    unfold eucInorm
    rw [mul_pinf_pinf, hl, max_self, ofInt_F, mul_pinf]
    exact_mod_cast hn
  rw [hd, lt_pinf]
  split <;> simp

example : pd [0] [3] (F.fin 2) = .ok F.pinf := by
  rw [C02_pairwise_dropout _ _ (by simp) (by simp) 2 (by norm_num), if_neg]
  unfold Spec.rms
  rw [not_le, Real.lt_sqrt (by norm_num)]
  norm_num [Finset.sum_range_succ]

example : pd [0] [3] (F.fin 3) = .ok (F.fin (Spec.rms [0] [3])) := by
  rw [C02_pairwise_dropout _ _ (by simp) (by simp) 3 (by norm_num), if_pos]
  unfold Spec.rms
  rw [Real.sqrt_le_left (by norm_num)]
  norm_num [Finset.sum_range_succ]

/-- C03: on series of a common length `n ≥ 1`, the distance the code computes is a metric. -/
theorem C03_pairwise_metric (n : ℕ) (hn : 0 < n) :
    ∃ D : List ℝ → List ℝ → ℝ,
      (∀ x y, x.length = n → y.length = n → pd x y F.pinf = .ok (F.fin (D x y))) ∧
      (∀ x y, x.length = n → y.length = n → 0 ≤ D x y) ∧
      (∀ x y, x.length = n → y.length = n → (D x y = 0 ↔ x = y)) ∧
      (∀ x y, x.length = n → y.length = n → D x y = D y x) ∧
      (∀ x y z, x.length = n → y.length = n → z.length = n → D x z ≤ D x y + D y z) := by
  refine ⟨Spec.rms, ?_, ?_, ?_, ?_, ?_⟩
  · intro x y hx hy
    exact C01_pairwise_is_rms x y (hx.trans hy.symm) (by omega)
  · intro x y _ _
    exact Real.sqrt_nonneg _
  · intro x y hx hy
    exact rms_eq_zero x y (hx.trans hy.symm) (by omega)
  · intro x y hx hy
    exact rms_comm x y (hx.trans hy.symm)
  · intro x y z hx hy hz
    exact rms_triangle x y z (hx.trans hy.symm)

/-- Under any rounding the computed distance is still nonnegative (or infinite), symmetric and 0 on
equal series. -/
theorem C03_pairwise_rounded (ρ : Rounding) (x y : List ℝ) (hlen : x.length = y.length)
    (hpos : 0 < x.length) :
    (∃ D : ℝ, 0 ≤ D ∧ pairwiseDistance (fins x) (fins y) (F.pinf : F ρ) = .ok (F.fin D) ∧
      pairwiseDistance (fins y) (fins x) (F.pinf : F ρ) = .ok (F.fin D)) ∧
    pairwiseDistance (fins x) (fins x) (F.pinf : F ρ) = .ok (F.fin 0) := by
  have run : ∀ x y : List ℝ, x.length = y.length → 0 < x.length →
      pairwiseDistance (fins x) (fins y) (F.pinf : F ρ) =
        .ok (F.fin (ρ.f (Real.sqrt (ρ.f (pacc ρ x y x.length / (len x : ℝ)))))) := by
    intro x y hlen hpos
    have hl : len x = len y := by simp [len, hlen]
    have hn : 0 < len y := by simp only [len]; omega
    rw [pairwise_run x y hlen hpos]
    have hd : eucInorm (F.pinf : F ρ) (len x) (len y) = F.pinf := by
      unfold eucInorm
      rw [mul_pinf_pinf, hl, max_self, ofInt_F, mul_pinf]
      exact_mod_cast hn
    rw [hd, lt_pinf, hl, eucNorm_fin (pacc_nonneg x y _) hn]
    simp
  have hsymm : ∀ k, pacc ρ x y k = pacc ρ y x k := by
    intro k
    induction k with
    | zero => rfl
    | succ k ih => simp only [pacc, ih, ed_comm ρ (x.getD k 0)]
  have hself : ∀ k, pacc ρ x x k = 0 := by
    intro k
    induction k with
    | zero => rfl
    | succ k ih => simp only [pacc, ih, ed_self, add_zero, ρ.zero]
  refine ⟨⟨_, ?_, run x y hlen hpos, ?_⟩, ?_⟩
  · exact ρ.nonneg (Real.sqrt_nonneg _)
  · rw [run y x hlen.symm (by omega), hsymm, hlen]
    simp [len, hlen]
  · rw [run x x rfl hpos, hself]
    simp [ρ.zero]

example : ∃ x y z : List ℝ, x.length = 2 ∧ y.length = 2 ∧ z.length = 2 ∧ x ≠ y ∧ y ≠ z :=
  ⟨[0, 0], [1, 0], [0, 1], rfl, rfl, rfl, by simp, by simp⟩

end Onex
