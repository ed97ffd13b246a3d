import Verif.Model.DataT
import Mathlib.Data.Real.Basic
import Mathlib.Algebra.BigOperators.Group.List.Basic

/-!
# Piecewise aggregate approximation, said with sums of sublists
-/

namespace Onex.Spec

/-- Block number `j`: elements `j*n .. min((j+1)*n, length)-1`. -/
def block {β : Type} (n : Nat) (row : List β) (j : Nat) : List β := (row.drop (j * n)).take n

/-- Arithmetic mean. -/
noncomputable def mean (xs : List ℝ) : ℝ := xs.sum / xs.length

/-- `out` is the approximation of `row` with block size `n`. -/
structure IsPaa (n : Nat) (row out : List ℝ) : Prop where
  length : out.length = (row.length + n - 1) / n
  value : ∀ j (h : j < out.length), out[j] = mean (block n row j)

end Onex.Spec
