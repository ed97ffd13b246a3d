import Verif.Model.Api
import Verif.Spec.GroupSet
import Verif.Spec.Table
import Verif.Spec.Api

/-!
# Groups as they are before the first search; calls that leave a dataset as it is
-/

namespace Onex.Spec

variable {α : Type} [DataT α]

/-- No band size of a positive length is negative (true of every ratio that is not). -/
def BandNN (ratio : α) : Prop := ∀ (n : Nat) (r : Int), 1 ≤ n → calculateWarpingBandSize ratio n = .ok r → 0 ≤ r

/-- A loaded dataset that has just been grouped, or whose groups have just been read from a file (any file that is
accepted and has no group of empty series). -/
inductive Made : GSet α → Prop where
  | grouped {env : Env α} {s s' : GSet α} {L : Nat} {R : List (List α)} {name th n} (hR : s.ds.Holds L R) (hL : 1 ≤ L)
      (h : s.groupAllLengths env name th = (.ok n, s')) : Made s'
  | loaded {env : Env α} {s s' : GSet α} {L : Nat} {R : List (List α)} {file n} (hR : s.ds.Holds L R) (hL : 1 ≤ L)
      (h : s.loadGroups env file = (.ok n, s'))
      (hl : ∀ l ls, GroupsOf s' l ls → ∀ g ∈ ls.groups, 1 ≤ g.memberLength) : Made s'

/-- The call does nothing to the dataset `j`, or only searches it. -/
def OnlySearches (c : Call α) (j : Int) : Prop := mayChange c j → ∃ q i b e, c = .bestMatch j q i b e

end Onex.Spec
