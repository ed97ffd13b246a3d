import Verif.Proofs.Flt
import Verif.Spec.Euclid
import Mathlib.Algebra.Order.BigOperators.Ring.Finset
import Mathlib.Algebra.BigOperators.Field
import Mathlib.Tactic.Positivity
import Mathlib.Tactic.FieldSimp

/-!
# `pairwiseDistance`
-/

namespace Onex

variable {ρ : Rounding}

/-- The running total of `pairwiseDistance` after `i` steps. -/
def pacc (ρ : Rounding) (x y : List ℝ) : ℕ → ℝ
  | 0 => 0
  | i + 1 => ρ.f (pacc ρ x y i + ed ρ (x.getD i 0) (y.getD i 0))

theorem pacc_fix (x y : List ℝ) : ∀ i, ρ.f (pacc ρ x y i) = pacc ρ x y i
  | 0 => ρ.zero
  | _ + 1 => ρ.idem _

theorem pacc_step (x y : List ℝ) (i : ℕ) : pacc ρ x y i ≤ pacc ρ x y (i + 1) := by
  have h : pacc ρ x y i ≤ pacc ρ x y i + ed ρ (x.getD i 0) (y.getD i 0) := by
    have := ed_nonneg ρ (x.getD i 0) (y.getD i 0)
    linarith
  have h2 := ρ.mono h
  rwa [pacc_fix] at h2

theorem pacc_mono (x y : List ℝ) : Monotone (pacc ρ x y) := monotone_nat_of_le_succ (pacc_step x y)

theorem pacc_nonneg (x y : List ℝ) (i : ℕ) : 0 ≤ pacc ρ x y i := pacc_mono x y (Nat.zero_le i)

theorem pacc_exact (x y : List ℝ) : ∀ n,
    pacc Rounding.exact x y n = ∑ i ∈ Finset.range n, (x.getD i 0 - y.getD i 0) ^ 2
  | 0 => by simp [pacc]
  | n + 1 => by
    rw [Finset.sum_range_succ, ← pacc_exact x y n]
    simp [pacc]

theorem lt_fin_trans {d : F ρ} {a b : ℝ} (h : DataT.lt d (F.fin a) = true) (hab : a ≤ b) :
    DataT.lt d (F.fin b) = true := by
  rw [lt_iff] at *
  cases d with
  | nan => exact h
  | ninf => trivial
  | fin x => exact lt_of_lt_of_le h hab
  | pinf => exact h

/-- What `pairwiseDistance` computes, for any rounding and any dropout. -/
theorem pairwise_run (x y : List ℝ) (hn : x.length = y.length) (h0 : 0 < x.length) (dropout : F ρ) :
    pairwiseDistance (fins x) (fins y) dropout =
      .ok (if DataT.lt (eucInorm dropout (len x) (len y)) (F.fin (pacc ρ x y x.length)) then F.pinf
        else eucNorm (F.fin (pacc ρ x y x.length)) (len x) (len y)) := by
  have hlen : len x = len y := by simp [len, hn]
  unfold pairwiseDistance
  simp only [len_fins, hlen, ne_eq, not_true_eq_false, if_false]
  generalize hd : eucInorm dropout (len y) (len y) = d
  have hloop : (forBrk 0 (len y) ((DataT.zero : F ρ), false) fun i s => do
      let x ← tsGet (fins x) i
      let y ← tsGet (fins y) i
      let total := DataT.add s.1 (euc x y)
      if DataT.gt total d then return .brk (total, true)
      else return .next (total, s.2)).Ensures (fun s =>
        (s.1 = F.fin (pacc ρ x y x.length) ∧ s.2 = false ∧
          DataT.lt d (F.fin (pacc ρ x y x.length)) = false) ∨
        (s.2 = true ∧ DataT.lt d (F.fin (pacc ρ x y x.length)) = true)) := by
    refine Res.Ensures.mono (forBrk_ensures
      (fun i s => s.1 = F.fin (pacc ρ x y i.toNat) ∧ s.2 = false ∧
        (0 < i → DataT.lt d (F.fin (pacc ρ x y i.toNat)) = false))
      (fun s => s.2 = true ∧ DataT.lt d (F.fin (pacc ρ x y x.length)) = true)
      (len_nonneg y) ⟨by simp [pacc], rfl, by simp⟩ ?_) ?_
    · rintro i ⟨t, b⟩ hi1 hi2 ⟨h1, h2, _⟩
      simp only at h1 h2
      obtain ⟨k, rfl⟩ := Int.eq_ofNat_of_zero_le hi1
      have hk : k < y.length := by simp only [len] at hi2; omega
      simp only [Int.toNat_natCast] at h1
      rw [tsGet_fins (by omega), tsGet_fins hk]
      simp only [Res.bind_ok, euc_fin, h1, add_fin]
      have hp : ρ.f (pacc ρ x y k + ed ρ (x.getD k 0) (y.getD k 0)) = pacc ρ x y (k + 1) := rfl
      have ht : ((k : Int) + 1).toNat = k + 1 := by omega
      rw [hp]
      by_cases hgt : DataT.lt d (F.fin (pacc ρ x y (k + 1))) = true
      · simp only [DataT.gt, hgt, if_true, Res.pure_eq, Res.ensures_ok, true_and]
        exact lt_fin_trans hgt (pacc_mono x y (by omega))
      · simp only [DataT.gt, hgt, Res.pure_eq, ht, h2]
        simp only [Bool.not_eq_true] at hgt
        simp
    · rintro ⟨t, b⟩ (⟨h1, h2, h3⟩ | h)
      · left
        have e : (len y).toNat = x.length := by simp [len, hn]
        rw [e] at h1 h3
        exact ⟨h1, h2, h3 (by simp only [len]; omega)⟩
      · right
        exact h
  obtain ⟨s, hs, hP⟩ := hloop
  erw [hs]
  obtain ⟨t, b⟩ := s
  simp only [Res.bind_ok, Res.pure_eq]
  rcases hP with ⟨h1, h2, h3⟩ | ⟨h2, h3⟩
  · simp only at h1 h2
    simp [h1, h2, h3]
  · simp only at h2
    simp [h2, h3, inf_F]

theorem eucNorm_fin {t : ℝ} (ht : 0 ≤ t) {n : Int} (hn : 0 < n) :
    eucNorm (α := F ρ) (F.fin t) n n = F.fin (ρ.f (Real.sqrt (ρ.f (t / n)))) := by
  unfold eucNorm
  have h : (n : ℝ) ≠ 0 := by exact_mod_cast hn.ne'
  have h' : (0 : ℝ) < n := by exact_mod_cast hn
  rw [max_self, ofInt_F, div_fin _ _ h, sqrt_fin _ (ρ.nonneg (by positivity))]

/-! ## Minkowski -/

open Finset in
theorem sqrt_sum_add_le {ι : Type} (s : Finset ι) (u v : ι → ℝ) :
    Real.sqrt (∑ i ∈ s, (u i + v i) ^ 2) ≤
      Real.sqrt (∑ i ∈ s, u i ^ 2) + Real.sqrt (∑ i ∈ s, v i ^ 2) := by
  have hU : 0 ≤ ∑ i ∈ s, u i ^ 2 := sum_nonneg fun i _ => sq_nonneg _
  have hV : 0 ≤ ∑ i ∈ s, v i ^ 2 := sum_nonneg fun i _ => sq_nonneg _
  apply Real.sqrt_le_iff.mpr
  refine ⟨add_nonneg (Real.sqrt_nonneg _) (Real.sqrt_nonneg _), ?_⟩
  have hcs : (∑ i ∈ s, u i * v i) ≤ Real.sqrt (∑ i ∈ s, u i ^ 2) * Real.sqrt (∑ i ∈ s, v i ^ 2) := by
    rw [← Real.sqrt_mul hU]
    apply Real.le_sqrt_of_sq_le
    exact sum_mul_sq_le_sq_mul_sq s u v
  have e1 : ∑ i ∈ s, (u i + v i) ^ 2 =
      ∑ i ∈ s, u i ^ 2 + ∑ i ∈ s, v i ^ 2 + 2 * ∑ i ∈ s, u i * v i := by
    rw [mul_sum, ← sum_add_distrib, ← sum_add_distrib]
    exact sum_congr rfl fun i _ => by ring
  have e2 := Real.sq_sqrt hU
  have e3 := Real.sq_sqrt hV
  nlinarith

theorem rms_triangle (x y z : List ℝ) (hxy : x.length = y.length) :
    Spec.rms x z ≤ Spec.rms x y + Spec.rms y z := by
  unfold Spec.rms
  rw [← hxy]
  rw [Real.sqrt_div' _ (Nat.cast_nonneg _), Real.sqrt_div' _ (Nat.cast_nonneg _),
    Real.sqrt_div' _ (Nat.cast_nonneg _), ← add_div]
  apply div_le_div_of_nonneg_right _ (Real.sqrt_nonneg _)
  have := sqrt_sum_add_le (Finset.range x.length) (fun i => x.getD i 0 - y.getD i 0)
    (fun i => y.getD i 0 - z.getD i 0)
  simpa using this

theorem rms_comm (x y : List ℝ) (h : x.length = y.length) : Spec.rms x y = Spec.rms y x := by
  unfold Spec.rms
  rw [h]
  congr 2
  exact Finset.sum_congr rfl fun i _ => by ring

theorem rms_eq_zero (x y : List ℝ) (h : x.length = y.length) (h0 : 0 < x.length) :
    Spec.rms x y = 0 ↔ x = y := by
  unfold Spec.rms
  have hpos : (0 : ℝ) < x.length := by exact_mod_cast h0
  rw [Real.sqrt_eq_zero (by positivity), div_eq_zero_iff]
  constructor
  · rintro (h1 | h1)
    · rw [Finset.sum_eq_zero_iff_of_nonneg (fun i _ => sq_nonneg _)] at h1
      apply List.ext_getElem h
      intro i h2 h3
      have := h1 i (Finset.mem_range.mpr h2)
      have h4 : x.getD i 0 = y.getD i 0 := by
        have := pow_eq_zero_iff (two_ne_zero) |>.mp this
        linarith
      simpa [h2, h3] using h4
    · exact absurd h1 hpos.ne'
  · rintro rfl
    left
    simp

end Onex
