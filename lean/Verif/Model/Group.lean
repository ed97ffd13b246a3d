import Verif.Model.Dataset

/-!
# `Group` (src/Group.hpp, src/Group.cpp)

A group refers to its dataset and to the member map of its length (both are C++ references); here
they are passed to each method and, when changed, returned.
-/

namespace Onex

/-- `member_coord_t`, src/Group.hpp:19 -/
abbrev Coord := Int × Int

/-- `group_membership_t`, src/Group.hpp:25-33.  `groupIndex` is never read by the code. -/
structure Membership where
  prev : Coord
  groupIndex : Int
deriving Repr, DecidableEq

/-- Default constructed entry: `prev` is a value-initialised pair; `groupIndex` is indeterminate in
the code (and never read), 0 here. -/
def Membership.default : Membership := { prev := (0, 0), groupIndex := 0 }

/-- Where a centroid's values live: in the dataset buffer (after `setCentroid`) or in its own
allocation (constructor, `loadGroup`). -/
inductive CentSrc (α : Type) where
  | view (v : View)
  | own (vals : List α)

/-- The `TimeSeries centroid` member: values and envelope cache. -/
structure Cent (α : Type) where
  src : CentSrc α
  cache : Option (Cache α)

/-- src/Group.hpp:146-158 -/
structure Group (α : Type) where
  groupIndex : Int
  last : Coord
  memberLength : Int
  subCount : Int
  count : Int
  centroid : Cent α

/-- `candidate_time_series_t` as returned by matches: src/TimeSeries.hpp:199-221 -/
structure Cand (α : Type) where
  ts : View
  dist : α

variable {α : Type} [DataT α]

/-- Constructor, src/Group.hpp:70-79: an owned all-zero centroid, no members. -/
def Group.new (groupIndex memberLength subCount : Int) : Group α :=
  { groupIndex := groupIndex, last := (-1, -1), memberLength := memberLength, subCount := subCount,
    count := 0,
    centroid := { src := .own (List.replicate memberLength.toNat DataT.zero), cache := none } }

/-- `addMember`, src/Group.cpp:18-24 -/
def Group.addMember (g : Group α) (mm : List Membership) (tsIndex tsStart : Int) :
    Res (Group α × List Membership) := do
  let mm ← vset mm (tsIndex * g.subCount + tsStart)
    { groupIndex := g.groupIndex, prev := g.last }
  return ({ g with count := g.count + 1, last := (tsIndex, tsStart) }, mm)

/-- `setCentroid`, src/Group.cpp:26-29: move assignment (src/TimeSeries.cpp:36-46), which keeps the
old envelope cache. -/
def Group.setCentroid (ds : Dataset α) (g : Group α) (tsIndex tsStart : Int) : Res (Group α) := do
  let v ← ds.getTimeSeries tsIndex tsStart (tsStart + g.memberLength)
  return { g with centroid := { g.centroid with src := .view v } }

/-- The centroid as a series with values (see `Dataset.resolve`). -/
def Cent.resolve (ds : Dataset α) (c : Cent α) : Res (Series α) :=
  match c.src with
  | .own vals => .ok { vals := vals, cache := c.cache }
  | .view v => do
    let vals ← ds.resolve v
    return { vals := vals, cache := c.cache }

/-- `distanceFromCentroid`, src/Group.cpp:31-35.  Returns the distance, the group with its
centroid's refreshed cache, and the query with its refreshed cache. -/
def Group.distanceFromCentroid (ds : Dataset α) (g : Group α) (query : Series α) (d : Dist α)
    (dropout : α) : Res (α × Group α × Series α) := do
  let c ← g.centroid.resolve ds
  let (x, c, query) ← d c query dropout
  return (x, { g with centroid := { g.centroid with cache := c.cache } }, query)

/-- Loop of `Group::getBestMatch`, src/Group.cpp:44-59.  State: current coordinate, best distance,
best member (default `(0,0)`), query (with cache). The chain is followed through `mm`; after
more than `mm.length` steps a slot repeats and the loop cannot end. -/
def Group.bestMatchLoop (ds : Dataset α) (g : Group α) (mm : List Membership) (d : Dist α) :
    Nat → Coord → α → Coord → Series α → Res (α × Coord × Series α)
  | fuel, cur, best, bestM, query =>
    if cur.1 = -1 then .ok (best, bestM, query)
    else
      match fuel with
      | 0 => .ub "diverges"
      | fuel + 1 => do
        let v ← ds.getTimeSeries cur.1 cur.2 (cur.2 + g.memberLength)
        let vals ← ds.resolve v
        let (x, query, _) ← d query (Series.mk' vals) best
        let (best, bestM) := if DataT.lt x best then (x, cur) else (best, bestM)
        let e ← vget mm (cur.1 * g.subCount + cur.2)
        bestMatchLoop ds g mm d fuel e.prev best bestM query

/-- `Group::getBestMatch`, src/Group.cpp:37-67 -/
def Group.getBestMatch (ds : Dataset α) (g : Group α) (mm : List Membership) (query : Series α)
    (d : Dist α) : Res (Cand α) := do
  let (best, bestM, _) ← g.bestMatchLoop ds mm d (mm.length + 1) g.last DataT.inf (0, 0) query
  let v ← ds.getTimeSeries bestM.1 bestM.2 (bestM.2 + g.memberLength)
  return { ts := v, dist := best }

/-- Loop of `getMembers`, src/Group.cpp:73-81. -/
def Group.membersLoop (ds : Dataset α) (g : Group α) (mm : List Membership) :
    Nat → Coord → Res (List View)
  | fuel, cur =>
    if cur.1 = -1 then .ok []
    else
      match fuel with
      | 0 => .ub "diverges"
      | fuel + 1 => do
        let v ← ds.getTimeSeries cur.1 cur.2 (cur.2 + g.memberLength)
        let e ← vget mm (cur.1 * g.subCount + cur.2)
        let rest ← membersLoop ds g mm fuel e.prev
        return v :: rest

/-- `getMembers`, src/Group.cpp:69-83 -/
def Group.getMembers (ds : Dataset α) (g : Group α) (mm : List Membership) : Res (List View) :=
  g.membersLoop ds mm (mm.length + 1) g.last

end Onex
