import Verif.Model.GroupSpace
import Verif.Model.SeriesHist

/-!
# The centroids of groups as series objects

What happens to the `TimeSeries centroid` members of the groups of a dataset from the creation of
the groups to their deletion, as a history of operations on series objects.  Series that live only
during a call (queries, the windows that distances are computed on) and the writes of loaded values
into a centroid are left out: they neither keep nor release memory.
-/

namespace Onex

variable {α : Type} [DataT α]

/-- Group number `k` (counted over all lengths) comes into being; the buffer of the dataset is block
`b`.  The constructor makes an owned centroid (src/Group.hpp:77); `setCentroid`
(src/Group.cpp:26-29) or `loadGroup` (src/Group.cpp:106) assigns a temporary to it, which is
destroyed at the end of the statement. -/
def Group.birth (b k : Nat) (g : Group α) : List (SOp α) :=
  [.newOwned g.memberLength,
   match g.centroid.src with
   | .view v => .newView b v.base v.index v.start v.stop
   | .own _ => .newOwned g.memberLength,
   .moveAssign (2 * k) (2 * k + 1),
   .destroy (2 * k + 1)]

/-- All groups, in the order in which they are made. -/
def births (b : Nat) : Nat → List (Group α) → List (SOp α)
  | _, [] => []
  | k, g :: gs => g.birth b k ++ births b (k + 1) gs

/-- The groups are deleted: `LocalLengthGroupSpace::reset`, src/LocalLengthGroupSpace.cpp:36-44. -/
def deaths (n : Nat) : List (SOp α) := (List.range n).map fun k => .destroy (2 * k)

/-- From loading a dataset with buffer `buf` to the deletion of its groups. -/
def centroidLife (buf : List α) (gs : List (Group α)) : List (SOp α) :=
  .newExt buf :: (births 0 0 gs ++ deaths gs.length)

/-- The groups of all lengths, in the order in which they are made (by length, then by number). -/
def GlobalSpace.allGroups (gs : GlobalSpace α) : List (Group α) :=
  gs.locals.flatMap fun
    | none => []
    | some ls => ls.groups

end Onex
