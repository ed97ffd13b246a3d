import Verif.Model.Groupable

/-!
# Groups that describe the present data (for C40)
-/

namespace Onex.Spec

variable {α : Type} [DataT α]

/-- The cached envelope of a series, if there is one, is what the code computes from the values it has now. -/
def CacheCurrent (vals : List α) (cache : Option (Cache α)) : Prop :=
  ∀ k, cache = some k → ∃ junk, generateKeoghLU junk vals k.band = .ok (k.lower, k.upper)

/-- A representative can be read from memory that is still allocated, and its cached envelope belongs to the values found there. -/
def Current (ds : Dataset α) (c : Cent α) : Prop :=
  ∃ s, c.resolve ds = .ok s ∧ CacheCurrent s.vals s.cache

/-- Every representative of every group is current. -/
def AllCurrent (s : GSet α) : Prop :=
  ∀ gs, s.groups = some gs → ∀ ls, some ls ∈ gs.locals → ∀ g ∈ ls.groups, Current s.ds g.centroid

/-- What a client can do to one dataset. -/
inductive GOp (α : Type) where
  | load (env : Env α) (file : Option Text) (path : String) (maxNumRow startCol : Int) (seps : Text)
  | normalize
  | paa (env : Env α) (n : Int)
  | group (env : Env α) (name : String) (threshold : α)
  | loadGroups (env : Env α) (file : Option Text)
  | match_ (env : Env α) (query : List α)

/-- The call returned normally. -/
def succeeded : Res Unit → Bool
  | .ok _ => true
  | _ => false

/-- Whether the operation, called in `s` with outcome `r`, changes data that groups may already describe. Loading discards the
old data even when it fails. -/
def GOp.spoils (s : GSet α) (r : Res Unit) : GOp α → Bool
  | .load .. => s.groups.isSome
  | .normalize | .paa .. => s.groups.isSome && succeeded r
  | _ => false

/-- Whether the operation makes new groups (if it succeeds). -/
def GOp.makes : GOp α → Bool
  | .group .. | .loadGroups .. => true
  | _ => false

/-- Outcome and new state. -/
def GOp.step (s : GSet α) : GOp α → Res Unit × GSet α
  | .load env file path m c seps => s.loadData env file path m c seps
  | .normalize => ((s.normalize).1 >>= fun _ => .ok (), s.normalize.2)
  | .paa env n => s.PAA env n
  | .group env name th => ((s.groupAllLengths env name th).1 >>= fun _ => .ok (), (s.groupAllLengths env name th).2)
  | .loadGroups env file => ((s.loadGroups env file).1 >>= fun _ => .ok (), (s.loadGroups env file).2)
  | .match_ env q => ((s.getBestMatch env (Series.mk' q)).1 >>= fun _ => .ok (), (s.getBestMatch env (Series.mk' q)).2)

/-- The states a client can reach from a new dataset, with the note whether data have been changed under existing groups
since the last successful grouping (or loading of groups). Exceptions are caught by the client; undefined behaviour ends the
history. -/
inductive History : GSet α → Bool → Prop where
  | new : History GSet.empty false
  | step {s : GSet α} {spoilt : Bool} (h : History s spoilt) (op : GOp α) {r : Res Unit} {s' : GSet α}
      (hs : op.step s = (r, s')) (hr : ∀ w, r ≠ .ub w) :
      History s' (if op.makes = true ∧ r = .ok () then false else spoilt || op.spoils s r)

end Onex.Spec
