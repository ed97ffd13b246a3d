/-!
# `data_t` and the operations on it

src/TimeSeries.hpp:16-20 makes `data_t` a `double` (or `float`).  The model is
parametric in the number type: `DataT` lists exactly the operations the code performs.
-/

namespace Onex

/-- The operations the code performs on `data_t` (src/TimeSeries.hpp:11-20). Comparison
operators are Boolean, as in C++, and need not be total (NaN). -/
class DataT (α : Type) where
  /-- implicit conversion of an `int` -/
  ofInt : Int → α
  /-- `INF`, src/TimeSeries.hpp:11 -/
  inf : α
  /-- `-INF`, used at src/TimeSeriesSet.cpp:221 (`data_t MAX = -INF`) -/
  ninf : α
  /-- `EPS`, src/TimeSeries.hpp:12 -/
  eps : α
  add : α → α → α
  sub : α → α → α
  mul : α → α → α
  div : α → α → α
  sqrt : α → α
  abs : α → α
  /-- `x < y` -/
  lt : α → α → Bool
  /-- `x <= y` -/
  le : α → α → Bool
  /-- `x == y` -/
  eq : α → α → Bool
  /-- `(int) floor(x)`; `none` when the conversion is undefined (NaN, infinite or outside the
  range of a 32-bit `int`). -/
  floorInt : α → Option Int

namespace DataT
variable {α : Type} [DataT α]

/-- the literal `0` -/
def zero : α := ofInt 0

/-- `x > y` -/
def gt (x y : α) : Bool := lt y x
/-- `x >= y` -/
def ge (x y : α) : Bool := le y x

/-- `std::min(x, y)`: returns `y` if `y < x`, else `x`. -/
def min (x y : α) : α := if lt y x then y else x
/-- `std::max(x, y)`: returns `y` if `x < y`, else `x`. -/
def max (x y : α) : α := if lt x y then y else x

end DataT

/-- Range of `int`. -/
def inIntRange (z : Int) : Bool := decide (-2147483648 ≤ z ∧ z ≤ 2147483647)

/-- IEEE doubles. No theorem uses this instance. -/
instance : DataT Float where
  ofInt := Float.ofInt
  inf := 1.0 / 0.0
  ninf := -1.0 / 0.0
  eps := 1e-12
  add := (· + ·)
  sub := (· - ·)
  mul := (· * ·)
  div := (· / ·)
  sqrt := Float.sqrt
  abs := Float.abs
  lt x y := x < y
  le x y := x ≤ y
  eq x y := x == y
  floorInt x :=
    let f := x.floor
    if f ≥ -2147483648.0 && f ≤ 2147483647.0 then
      some (if f < 0 then - ((-f).toUInt64.toNat : Int) else (f.toUInt64.toNat : Int))
    else none

end Onex
