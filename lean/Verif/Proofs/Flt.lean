import Verif.Model.Flt
import Verif.Model.Distance
import Verif.Proofs.Basic

/-!
# Arithmetic on finite values of `F ρ`
-/

namespace Onex

variable {ρ : Rounding}

section ops
open DataT

@[simp] theorem ofInt_F (z : Int) : ofInt (α := F ρ) z = F.fin (z : ℝ) := rfl
@[simp] theorem zero_F : zero (α := F ρ) = F.fin 0 := by simp [zero]
theorem inf_F : inf (α := F ρ) = F.pinf := rfl
theorem ninf_F : ninf (α := F ρ) = F.ninf := rfl

@[simp] theorem add_fin (x y : ℝ) : add (α := F ρ) (F.fin x) (F.fin y) = F.fin (ρ.f (x + y)) :=
  rfl
@[simp] theorem sub_fin (x y : ℝ) : sub (α := F ρ) (F.fin x) (F.fin y) = F.fin (ρ.f (x - y)) := by
  show F.add (F.fin x) (F.neg (F.fin y)) = _
  simp [F.neg, F.add, sub_eq_add_neg]
@[simp] theorem mul_fin (x y : ℝ) : mul (α := F ρ) (F.fin x) (F.fin y) = F.fin (ρ.f (x * y)) :=
  rfl
theorem div_fin (x y : ℝ) (h : y ≠ 0) :
    div (α := F ρ) (F.fin x) (F.fin y) = F.fin (ρ.f (x / y)) := by
  show F.div _ _ = _
  simp [F.div, h]
theorem sqrt_fin (x : ℝ) (h : 0 ≤ x) :
    sqrt (α := F ρ) (F.fin x) = F.fin (ρ.f (Real.sqrt x)) := by
  show F.sqrt _ = _
  simp [F.sqrt, h]
@[simp] theorem sqrt_pinf : sqrt (α := F ρ) F.pinf = F.pinf := rfl
theorem div_pinf (y : ℝ) (h : 0 ≤ y) : div (α := F ρ) F.pinf (F.fin y) = F.pinf := by
  show F.div _ _ = _
  simp [F.div, h]
theorem mul_pinf (y : ℝ) (h : 0 < y) : mul (α := F ρ) F.pinf (F.fin y) = F.pinf := by
  show F.mul _ _ = _
  simp [F.mul, F.infSign, h]
@[simp] theorem mul_pinf_pinf : mul (α := F ρ) F.pinf F.pinf = F.pinf := rfl

theorem lt_iff (x y : F ρ) : lt x y = true ↔ F.Lt x y := @decide_eq_true_iff _ (Classical.propDecidable _)
theorem lt_eq_false (x y : F ρ) : lt x y = false ↔ ¬ F.Lt x y := @decide_eq_false_iff_not _ (Classical.propDecidable _)
theorem eq_iff (x y : F ρ) : DataT.eq x y = true ↔ F.Eqv x y := @decide_eq_true_iff _ (Classical.propDecidable _)
theorem le_iff (x y : F ρ) : le x y = true ↔ F.Lt x y ∨ F.Eqv x y :=
  @decide_eq_true_iff _ (@instDecidableOr _ _ (Classical.propDecidable _) (Classical.propDecidable _))

@[simp] theorem lt_fin (x y : ℝ) : lt (α := F ρ) (F.fin x) (F.fin y) = true ↔ x < y := lt_iff _ _
@[simp] theorem lt_fin_false (x y : ℝ) : lt (α := F ρ) (F.fin x) (F.fin y) = false ↔ y ≤ x := by
  rw [lt_eq_false]
  exact not_lt
@[simp] theorem lt_fin_pinf (x : ℝ) : lt (α := F ρ) (F.fin x) F.pinf = true :=
  (lt_iff _ _).mpr trivial
@[simp] theorem lt_pinf (x : F ρ) : lt (α := F ρ) F.pinf x = false := by
  rw [lt_eq_false]; cases x <;> exact id
@[simp] theorem lt_ninf_fin (x : ℝ) : lt (α := F ρ) F.ninf (F.fin x) = true :=
  (lt_iff _ _).mpr trivial
@[simp] theorem lt_fin_ninf (x : ℝ) : lt (α := F ρ) (F.fin x) F.ninf = false := by
  rw [lt_eq_false]; exact id
@[simp] theorem lt_nan_left (x : F ρ) : lt (α := F ρ) F.nan x = false := by
  rw [lt_eq_false]; cases x <;> exact id
@[simp] theorem lt_nan_right (x : F ρ) : lt (α := F ρ) x F.nan = false := by
  rw [lt_eq_false]; cases x <;> exact id
theorem lt_irrefl_F (x : F ρ) : lt (α := F ρ) x x = false := by
  rw [lt_eq_false]; cases x <;> simp [F.Lt]
@[simp] theorem eq_fin (x y : ℝ) : DataT.eq (α := F ρ) (F.fin x) (F.fin y) = true ↔ x = y :=
  eq_iff _ _
@[simp] theorem le_fin (x y : ℝ) : le (α := F ρ) (F.fin x) (F.fin y) = true ↔ x ≤ y := by
  rw [le_iff]
  exact le_iff_lt_or_eq.symm

theorem lt_fin_eq (x y : ℝ) : lt (α := F ρ) (F.fin x) (F.fin y) = decide (x < y) := by
  rw [Bool.eq_iff_iff]
  simp

theorem min_fin (x y : ℝ) : DataT.min (α := F ρ) (F.fin x) (F.fin y) = F.fin (Min.min x y) := by
  unfold DataT.min
  by_cases h : y < x
  · simp [h, min_eq_right h.le]
  · simp [h, min_eq_left (not_lt.mp h)]
theorem max_fin (x y : ℝ) : DataT.max (α := F ρ) (F.fin x) (F.fin y) = F.fin (Max.max x y) := by
  unfold DataT.max
  by_cases h : x < y
  · simp [h, max_eq_right h.le]
  · simp [h, max_eq_left (not_lt.mp h)]
@[simp] theorem min_pinf_fin (x : ℝ) : DataT.min (α := F ρ) F.pinf (F.fin x) = F.fin x := by
  simp [DataT.min]

theorem F.fin_inj {x y : ℝ} : (F.fin x : F ρ) = F.fin y ↔ x = y := by
  constructor
  · intro h; cases h; rfl
  · intro h; rw [h]

end ops

/-! ## Rounding -/

theorem Rounding.nonneg (ρ : Rounding) {x : ℝ} (h : 0 ≤ x) : 0 ≤ ρ.f x := by
  have := ρ.mono h
  rwa [ρ.zero] at this

theorem Rounding.nonpos (ρ : Rounding) {x : ℝ} (h : x ≤ 0) : ρ.f x ≤ 0 := by
  have := ρ.mono h
  rwa [ρ.zero] at this

theorem Rounding.abs_mono (ρ : Rounding) {x y : ℝ} (h : |x| ≤ |y|) : |ρ.f x| ≤ |ρ.f y| := by
  have key : ∀ z : ℝ, |ρ.f z| = ρ.f |z| := by
    intro z
    rcases le_total 0 z with hz | hz
    · rw [abs_of_nonneg hz, abs_of_nonneg (ρ.nonneg hz)]
    · rw [abs_of_nonpos hz, abs_of_nonpos (ρ.nonpos hz), ρ.odd]
  rw [key, key]
  exact ρ.mono h

/-- The squared difference as the code computes it. -/
def ed (ρ : Rounding) (x y : ℝ) : ℝ := ρ.f (ρ.f (x - y) * ρ.f (x - y))

theorem ed_nonneg (ρ : Rounding) (x y : ℝ) : 0 ≤ ed ρ x y :=
  ρ.nonneg (mul_self_nonneg _)

theorem ed_comm (ρ : Rounding) (x y : ℝ) : ed ρ x y = ed ρ y x := by
  unfold ed
  have : x - y = -(y - x) := by ring
  rw [this, ρ.odd]
  congr 1
  ring

theorem ed_self (ρ : Rounding) (x : ℝ) : ed ρ x x = 0 := by
  simp [ed, ρ.zero]

theorem ed_fix (ρ : Rounding) (x y : ℝ) : ρ.f (ed ρ x y) = ed ρ x y := ρ.idem _

theorem ed_mono (ρ : Rounding) {x y x' y' : ℝ} (h : |x - y| ≤ |x' - y'|) :
    ed ρ x y ≤ ed ρ x' y' := by
  unfold ed
  apply ρ.mono
  have := ρ.abs_mono h
  exact mul_self_le_mul_self_of_abs_le this
where
  mul_self_le_mul_self_of_abs_le {a b : ℝ} (h : |a| ≤ |b|) : a * a ≤ b * b := by
    rw [← abs_mul_abs_self a, ← abs_mul_abs_self b]
    exact mul_self_le_mul_self (abs_nonneg _) h

@[simp] theorem ed_exact (x y : ℝ) : ed Rounding.exact x y = (x - y) ^ 2 := by
  simp [ed, sq]

@[simp] theorem euc_fin (x y : ℝ) : euc (α := F ρ) (F.fin x) (F.fin y) = F.fin (ed ρ x y) := by
  simp [euc, ed]

/-! ## Series of finite values -/

/-- A list of real numbers as a buffer of `data_t`. -/
def fins (l : List ℝ) : List (F ρ) := l.map F.fin

@[simp] theorem fins_length (l : List ℝ) : (fins l : List (F ρ)).length = l.length := by simp [fins]
@[simp] theorem len_fins (l : List ℝ) : len (fins l : List (F ρ)) = len l := by simp [len]

theorem vget_fins {l : List ℝ} {i : Nat} (h : i < l.length) :
    vget (fins l : List (F ρ)) (i : Int) = .ok (F.fin (l.getD i 0)) := by
  rw [vget_nat (by simpa using h)]
  simp [fins, h]

theorem tsGet_fins {l : List ℝ} {i : Nat} (h : i < l.length) :
    tsGet (fins l : List (F ρ)) (i : Int) = .ok (F.fin (l.getD i 0)) := by
  unfold tsGet
  rw [vget_fins h]
  have h1 : ¬ ((i : Int) < 0 ∨ (i : Int) ≥ len (fins l : List (F ρ))) := by
    rw [len_fins]
    simp only [len]
    omega
  rw [if_neg h1]

end Onex
