import Mathlib.Analysis.Real.Sqrt
import Mathlib.Algebra.BigOperators.Group.Finset.Basic

/-!
# Specification of the Euclidean distance (independent of the model)
-/

namespace Onex.Spec

open Finset

/-- Root mean square difference of two series of the same length. -/
noncomputable def rms (x y : List ℝ) : ℝ :=
  Real.sqrt ((∑ i ∈ range x.length, (x.getD i 0 - y.getD i 0) ^ 2) / x.length)

end Onex.Spec
