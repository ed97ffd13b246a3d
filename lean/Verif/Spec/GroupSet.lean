import Verif.Model.Groupable
import Verif.Spec.Members
import Verif.Spec.Grouping
import Verif.Spec.Euclid

/-!
# What a grouped dataset looks like from outside
-/

namespace Onex.Spec

variable {α : Type}

/-- `ls` are the groups of length `l` of a dataset. -/
def GroupsOf (s : GSet α) (l : Int) (ls : LocalSpace α) : Prop :=
  ∃ gs, s.groups = some gs ∧ vget gs.locals l = .ok (some ls)

/-- The groups `ls` partition the sub-series of length `l`: `M` are the member lists, as the code lists them; no
list is empty; together they name every sub-series exactly once. -/
structure Partition [DataT α] (ds : Dataset α) (l : Int) (ls : LocalSpace α) (M : List (List Coord)) : Prop where
  card : M.length = ls.groups.length
  members : ∀ (k : Nat) (h : k < ls.groups.length) (h' : k < M.length),
    ls.groups[k].getMembers ds ls.memberMap = .ok (M[k].map (subView ds l)) ∧
    ls.groups[k].count = M[k].length ∧ M[k] ≠ []
  once : M.flatten.Nodup
  all : ∀ c, c ∈ M.flatten ↔ IsSub ds.itemCount ds.itemLength l c

/-- Representative `rep` of group `g`, as values. -/
def RepValues {ρ : Rounding} (ds : Dataset (F ρ)) (g : Group (F ρ)) (rep : List ℝ) : Prop :=
  ∃ s, g.centroid.resolve ds = .ok s ∧ s.vals = rep.map F.fin

/-- The values of a sub-series. -/
def SubValues {ρ : Rounding} (ds : Dataset (F ρ)) (v : View) (vals : List ℝ) : Prop :=
  ds.resolve v = .ok (vals.map F.fin)

/-- What the named distances mean in exact arithmetic. -/
inductive NamedDist (ratio : ℝ) : String → (List ℝ → List ℝ → F Rounding.exact) → Prop where
  | euclidean : NamedDist ratio "euclidean" (fun a b => F.fin (rms a b))
  | dtw : NamedDist ratio "euclidean_dtw" (warped ratio)

end Onex.Spec
