import Verif.Model.GroupSpace

/-!
# Members of groups, said without the linked list the code uses
-/

namespace Onex
namespace Spec

/-- `c` names a sub-series of length `l` of a dataset of `cnt` series of length `len`. -/
def IsSub (cnt len l : Int) (c : Coord) : Prop :=
  (0 ≤ c.1 ∧ c.1 < cnt) ∧ 0 ≤ c.2 ∧ c.2 + l ≤ len

/-- The sub-series of length `l` at `c`. -/
def subView {α : Type} (ds : Dataset α) (l : Int) (c : Coord) : View :=
  { gen := ds.gen, base := c.1 * ds.itemLength, index := c.1, start := c.2, stop := c.2 + l }

end Spec
end Onex
