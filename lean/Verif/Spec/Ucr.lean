import Verif.Spec.Warping

/-!
# Specification of nearest-window search (independent of the model)
-/

namespace Onex.Spec

/-- The arithmetic mean. -/
noncomputable def average (w : List ℝ) : ℝ := w.sum / w.length

/-- The standard deviation. -/
noncomputable def stdev (w : List ℝ) : ℝ := Real.sqrt ((w.map fun x => (x - average w) ^ 2).sum / w.length)

/-- The series shifted and scaled to mean 0 and deviation 1. -/
noncomputable def znorm (w : List ℝ) : List ℝ := w.map fun x => (x - average w) / stdev w

/-- Not all values are the same. -/
def Varies (w : List ℝ) : Prop := ∃ x ∈ w, ∃ y ∈ w, x ≠ y

/-- The window of `m` values that starts at position `p`. -/
def windowAt (data : List ℝ) (p m : ℕ) : List ℝ := (data.drop p).take m

/-- At position `p` of the data there is a window that can be normalised, and the least warping cost between it and the query, both
normalised, is `L`. -/
structure WindowCost (r : ℕ) (data query : List ℝ) (p : ℕ) (L : ℝ) : Prop where
  fits : p + query.length ≤ data.length
  varies : Varies (windowAt data p query.length)
  least : IsLeast (warpCosts r (znorm (windowAt data p query.length)) (znorm query)) L

/-- `loc` is the first window of least cost `v`; among windows starting before `n` and with a cost below `bound`. When there is no such window,
`loc` is 0 and `v` is `bound`. -/
def FirstBest (r : ℕ) (data query : List ℝ) (bound : ℝ) (n : ℕ) (loc : ℕ) (v : ℝ) : Prop :=
  (loc < n ∧ v < bound ∧ WindowCost r data query loc v ∧
    (∀ p L, p < n → WindowCost r data query p L → v ≤ L) ∧
    ∀ p L, p < loc → WindowCost r data query p L → v < L) ∨
  (loc = 0 ∧ v = bound ∧ ∀ p L, p < n → WindowCost r data query p L → bound ≤ L)

end Onex.Spec
