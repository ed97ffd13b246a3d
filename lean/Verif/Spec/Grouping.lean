import Verif.Spec.Warping
import Verif.Spec.Members
import Verif.Model.Flt

/-!
# The warped distance as a value, and sub-series of a table
-/

namespace Onex.Spec

open Classical in
/-- Warped distance of two series: the scaled root of the least cost of a warping path in the
band, or infinity if there is no such path. -/
noncomputable def warped (ratio : ℝ) (a b : List ℝ) : F Rounding.exact :=
  let costs := warpCosts (bandSize ratio (max a.length b.length)) a b
  if costs.Nonempty then
    F.fin (Real.sqrt (sInf costs) / (2 * max (a.length : ℝ) b.length))
  else F.pinf

/-- Values `start .. start + l - 1` of series `index` of a table. -/
def subVals {β : Type} (R : List (List β)) (l : Int) (c : Coord) : List β :=
  ((R.getD c.1.toNat []).drop c.2.toNat).take l.toNat

end Onex.Spec
