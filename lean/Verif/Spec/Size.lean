import Verif.Model.Groupable

/-!
# How big things are
-/

namespace Onex

/-- A third of the largest `int`. -/
def intLimit : Int := 715827882

/-- A dataset of at most `intLimit` values. -/
structure Dataset.Small {α : Type} (ds : Dataset α) : Prop where
  count0 : 0 ≤ ds.itemCount
  length0 : 0 ≤ ds.itemLength
  count : ds.itemCount ≤ intLimit
  length : ds.itemLength ≤ intLimit
  values : ds.itemCount * ds.itemLength ≤ intLimit
  buffer : ∀ b, ds.data = some b → len b ≤ intLimit

/-- A coordinate of a member chain: a pair of indices, or the end mark `(-1, -1)`. -/
def Coord.Small (c : Coord) : Prop := -1 ≤ c.1 ∧ c.1 ≤ intLimit ∧ -1 ≤ c.2 ∧ c.2 ≤ intLimit

/-- A group of sub-series of the dataset. -/
structure Group.Small {α : Type} (ds : Dataset α) (g : Group α) : Prop where
  last : Coord.Small g.last
  member0 : 0 ≤ g.memberLength
  member : g.memberLength ≤ intLimit
  sub0 : 0 ≤ g.subCount
  sub : g.subCount ≤ ds.itemLength
  own : ∀ vals, g.centroid.src = .own vals → len vals ≤ intLimit

/-- The groups of one length. -/
structure LocalSpace.Small {α : Type} (ds : Dataset α) (ls : LocalSpace α) : Prop where
  groups : ∀ g ∈ ls.groups, g.Small ds
  map : ∀ e ∈ ls.memberMap, Coord.Small e.prev

/-- The groups of all lengths. -/
structure GlobalSpace.Small {α : Type} (ds : Dataset α) (gs : GlobalSpace α) : Prop where
  lengths : len gs.locals ≤ intLimit + 1
  locals : ∀ ls, some ls ∈ gs.locals → ls.Small ds

/-- A dataset and its groups. -/
structure GSet.Small {α : Type} (s : GSet α) : Prop where
  ds : s.ds.Small
  groups : ∀ gs, s.groups = some gs → gs.Small s.ds

/-- Band sizes computed from the ratio are not negative (−1 for an empty series). -/
def BandNonneg {α : Type} [DataT α] (ratio : α) : Prop :=
  ∀ l r, 0 ≤ l → calculateWarpingBandSize ratio l = .ok r → -1 ≤ r

end Onex
