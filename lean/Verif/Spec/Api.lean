import Verif.Model.Api

/-!
# What it means for an id to be in use
-/

namespace Onex.Spec

variable {α : Type}

/-- The dataset bound to an id, if any. -/
def dataset (a : Api α) (id : Int) : Option (GSet α) :=
  if id < 0 then none else (a.slots[id.toNat]?).join

/-- `id` is the least id not in use. -/
def LeastFree (a : Api α) (id : Int) : Prop :=
  0 ≤ id ∧ dataset a id = none ∧ ∀ j, 0 ≤ j → j < id → dataset a j ≠ none

/-- The list enumerates the ids in use, without repetition and in increasing order. -/
def IdsInUse (a : Api α) (ids : List Int) : Prop :=
  ids.Pairwise (· < ·) ∧ ∀ i, i ∈ ids ↔ dataset a i ≠ none

/-- The ids a call is about. -/
def ids : Call α → List Int
  | .save i _ _ _ => [i]
  | .unload i => [i]
  | .info i => [i]
  | .normalize i => [i]
  | .group i _ => [i]
  | .saveGroup i _ _ => [i]
  | .loadGroup i _ => [i]
  | .bestMatch r q _ _ _ => [r, q]
  | .paa i _ => [i]
  | _ => []

/-- The call may change the dataset bound to the id (loading binds a new id, never one in use). -/
def mayChange : Call α → Int → Prop
  | .unload i, j => j = i
  | .unloadAll, _ => True
  | .normalize i, j => j = i
  | .group i _, j => j = i
  | .loadGroup i _, j => j = i
  | .bestMatch r _ _ _ _, j => j = r
  | .paa i _, j => j = i
  | _, _ => False

/-- States that a history of API calls without undefined behaviour leads to. -/
def Reachable [DataT α] (a : Api α) : Prop := ∃ ratio h, Api.run (Api.init ratio) h = some a

end Onex.Spec
