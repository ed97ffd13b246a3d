import Verif.Model.Flt
import Verif.Spec.Warping

/-!
# Rounding with a bounded relative error
-/

namespace Onex.Spec

/-- Every operation has a relative error of at most `u` (as in IEEE arithmetic without overflow and underflow, where `u` is
half the machine epsilon). -/
structure RelErr (ρ : Rounding) (u : ℝ) : Prop where
  nonneg : 0 ≤ u
  lt_one : u < 1
  err : ∀ x, |ρ.f x - x| ≤ u * |x|

/-- `y` is `x ≥ 0` up to `k` errors of relative size `u`. -/
def Within (u : ℝ) (k : ℕ) (x y : ℝ) : Prop := (1 - u) ^ k * x ≤ y ∧ y ≤ (1 + u) ^ k * x

/-- The warped distance in the band `r`: the root of the least cost of a warping path, scaled. -/
noncomputable def warpedIn (r : ℕ) (a b : List ℝ) : ℝ :=
  Real.sqrt (sInf (warpCosts r a b)) / (2 * max (a.length : ℝ) b.length)

end Onex.Spec
