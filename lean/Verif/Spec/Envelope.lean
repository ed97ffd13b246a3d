import Mathlib.Data.Real.Basic
import Mathlib.Order.Bounds.Basic

/-!
# Specification of the envelope of a series (independent of the model)
-/

namespace Onex.Spec

/-- The values of `x` at positions at most `w` away from `i`. -/
def window (x : List ℝ) (w i : ℕ) : Set ℝ :=
  {y | ∃ j, x[j]? = some y ∧ i ≤ j + w ∧ j ≤ i + w}

/-- `lo` and `up` are the sliding minimum and maximum of `x` with half-width `w`. -/
structure IsEnvelope (x lo up : List ℝ) (w : ℕ) : Prop where
  lenLo : lo.length = x.length
  lenUp : up.length = x.length
  low : ∀ i, i < x.length → IsLeast (window x w i) (lo.getD i 0)
  upp : ∀ i, i < x.length → IsGreatest (window x w i) (up.getD i 0)

end Onex.Spec
