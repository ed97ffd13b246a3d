import Mathlib.Data.Int.Log
import Mathlib.Analysis.Real.Sqrt
import Mathlib.Algebra.Order.Round

/-!
# Numbers of a binary floating-point format with unbounded exponent
-/

namespace Onex.Spec

/-- `y` has at most `p + 1` significant bits. -/
def HasBits (p : ℕ) (y : ℝ) : Prop := ∃ m e : ℤ, |m| ≤ 2 ^ (p + 1) ∧ y = m * (2 : ℝ) ^ e

end Onex.Spec
