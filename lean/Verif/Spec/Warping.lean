import Mathlib.Analysis.Real.Sqrt
import Mathlib.Algebra.BigOperators.Group.List.Basic
import Mathlib.Order.Bounds.Basic
import Mathlib.Algebra.Order.Floor.Semiring

/-!
# Specification of banded dynamic time warping (independent of the model)
-/

namespace Onex.Spec

/-- One step of a warping path: right, down or diagonal. -/
def IsStep (p q : ℕ × ℕ) : Prop :=
  q = (p.1 + 1, p.2) ∨ q = (p.1, p.2 + 1) ∨ q = (p.1 + 1, p.2 + 1)

/-- `p` is a warping path from `(0, 0)` to `(i, j)` inside the Sakoe-Chiba band of width `r`. -/
structure IsWarpPath (r i j : ℕ) (p : List (ℕ × ℕ)) : Prop where
  head : p.head? = some (0, 0)
  last : p.getLast? = some (i, j)
  steps : p.IsChain IsStep
  band : ∀ q ∈ p, q.1 ≤ q.2 + r ∧ q.2 ≤ q.1 + r

/-- Total squared difference along a path. -/
def pathCost (a b : List ℝ) (p : List (ℕ × ℕ)) : ℝ :=
  (p.map fun q => (a.getD q.1 0 - b.getD q.2 0) ^ 2).sum

/-- The costs of all warping paths between `a` and `b` in the band. -/
def warpCosts (r : ℕ) (a b : List ℝ) : Set ℝ :=
  {c | ∃ p, IsWarpPath r (a.length - 1) (b.length - 1) p ∧ pathCost a b p = c}

/-- The band for a ratio and the longer length `n`: `⌊n * ratio⌋` but at most `n - 1`. -/
noncomputable def bandSize (ratio : ℝ) (n : ℕ) : ℕ := min ⌊(n : ℝ) * ratio⌋₊ (n - 1)

/-- What the caller promises about the array `cb`: whatever row the computation has finished, the entry it looks at is no more than
what any warping path still has to pay below that row. -/
def ValidCb (r : ℕ) (A B cb : List ℝ) : Prop :=
  ∀ i, i + r + 1 < A.length → ∀ p, IsWarpPath r (A.length - 1) (B.length - 1) p →
    cb.getD (i + r + 1) 0 ≤ pathCost A B (p.filter fun q => decide (i < q.1))

end Onex.Spec
