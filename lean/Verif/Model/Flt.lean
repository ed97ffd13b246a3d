import Verif.Model.DataT
import Mathlib.Analysis.Real.Sqrt

/-!
# The number type the theorems are about

`F ρ` contains NaN, the two infinities and the reals; every arithmetic result that is a real
number is rounded by `ρ`.  A `Rounding` is any monotone, odd, idempotent map fixing 0.
Rounding to nearest (ties to even) into a floating-point format with unbounded exponent is such a map, and so
is the identity (`Rounding.exact`).  Not modelled: signed zeros, overflow of a finite result to
infinity.
-/

namespace Onex

/-- What the theorems assume about the rounding of arithmetic results. -/
structure Rounding where
  f : ℝ → ℝ
  mono : Monotone f
  odd : ∀ x, f (-x) = - f x
  idem : ∀ x, f (f x) = f x

theorem Rounding.zero (ρ : Rounding) : ρ.f 0 = 0 := by
  have h := ρ.odd 0
  simp only [neg_zero] at h
  linarith

/-- No rounding. -/
def Rounding.exact : Rounding where
  f := id
  mono := monotone_id
  odd := fun _ => rfl
  idem := fun _ => rfl

@[simp] theorem Rounding.exact_f (x : ℝ) : Rounding.exact.f x = x := rfl

/-- Values of `data_t` under rounding `ρ` (the rounding only affects the operations). -/
inductive F (ρ : Rounding) : Type where
  | nan
  | ninf
  | fin (x : ℝ)
  | pinf

namespace F
variable {ρ : Rounding}

/-- IEEE addition, exact on special values, rounded on reals. -/
def add : F ρ → F ρ → F ρ
  | .fin x, .fin y => .fin (ρ.f (x + y))
  | .nan, _ => .nan
  | _, .nan => .nan
  | .pinf, .ninf => .nan
  | .ninf, .pinf => .nan
  | .pinf, _ => .pinf
  | _, .pinf => .pinf
  | .ninf, _ => .ninf
  | _, .ninf => .ninf

def neg : F ρ → F ρ
  | .nan => .nan
  | .ninf => .pinf
  | .fin x => .fin (-x)
  | .pinf => .ninf

/-- `x - y` is `x + (-y)`. -/
def sub (x y : F ρ) : F ρ := add x (neg y)

/-- infinity with the sign of the real `x`; NaN when `x = 0` -/
noncomputable def infSign (x : ℝ) : F ρ :=
  if 0 < x then .pinf else if x < 0 then .ninf else .nan

/-- IEEE multiplication (`0 * inf` is NaN). -/
noncomputable def mul : F ρ → F ρ → F ρ
  | .fin x, .fin y => .fin (ρ.f (x * y))
  | .nan, _ => .nan
  | _, .nan => .nan
  | .pinf, .fin y => infSign y
  | .ninf, .fin y => infSign (-y)
  | .fin x, .pinf => infSign x
  | .fin x, .ninf => infSign (-x)
  | .pinf, .pinf => .pinf
  | .ninf, .ninf => .pinf
  | .pinf, .ninf => .ninf
  | .ninf, .pinf => .ninf

/-- IEEE division; the divisor 0 is taken as +0. -/
noncomputable def div : F ρ → F ρ → F ρ
  | .fin x, .fin y => if y = 0 then infSign x else .fin (ρ.f (x / y))
  | .nan, _ => .nan
  | _, .nan => .nan
  | .fin _, _ => .fin 0
  | .pinf, .fin y => if 0 ≤ y then .pinf else .ninf
  | .ninf, .fin y => if 0 ≤ y then .ninf else .pinf
  | _, _ => .nan

noncomputable def sqrt : F ρ → F ρ
  | .fin x => if 0 ≤ x then .fin (ρ.f (Real.sqrt x)) else .nan
  | .pinf => .pinf
  | _ => .nan

noncomputable def abs : F ρ → F ρ
  | .nan => .nan
  | .ninf => .pinf
  | .fin x => .fin |x|
  | .pinf => .pinf

/-- `x < y`; false when either is NaN. -/
def Lt : F ρ → F ρ → Prop
  | .fin x, .fin y => x < y
  | .ninf, .fin _ => True
  | .ninf, .pinf => True
  | .fin _, .pinf => True
  | _, _ => False

/-- `x == y`; false when either is NaN. -/
def Eqv : F ρ → F ρ → Prop
  | .fin x, .fin y => x = y
  | .ninf, .ninf => True
  | .pinf, .pinf => True
  | _, _ => False

end F

open Classical in
/-- Arithmetic of `data_t` under rounding `ρ`. Integers are converted exactly (the code only
converts lengths and block counts). -/
noncomputable instance (ρ : Rounding) : DataT (F ρ) where
  ofInt z := F.fin (z : ℝ)
  inf := F.pinf
  ninf := F.ninf
  eps := F.fin (1 / 10 ^ 12)
  add := F.add
  sub := F.sub
  mul := F.mul
  div := F.div
  sqrt := F.sqrt
  abs := F.abs
  lt x y := decide (F.Lt x y)
  le x y := decide (F.Lt x y ∨ F.Eqv x y)
  eq x y := decide (F.Eqv x y)
  floorInt
    | F.fin x => if inIntRange ⌊x⌋ then some ⌊x⌋ else none
    | _ => none

end Onex
