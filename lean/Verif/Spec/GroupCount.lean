import Verif.Spec.GroupSet

/-!
# Numbers of groups
-/

namespace Onex.Spec

/-- There are `k` groups of sub-series of length `l`. -/
def GroupCount {α : Type} (s : GSet α) (l : Int) (k : ℕ) : Prop := ∃ ls, GroupsOf s l ls ∧ ls.groups.length = k

end Onex.Spec
