import Verif.Model.Group

/-!
# `LocalLengthGroupSpace` and `GlobalGroupSpace`
(src/LocalLengthGroupSpace.cpp, src/GlobalGroupSpace.cpp), except saving and loading
-/

namespace Onex

/-- src/LocalLengthGroupSpace.hpp:73-76 -/
structure LocalSpace (α : Type) where
  length : Int
  subCount : Int
  groups : List (Group α)
  memberMap : List Membership

variable {α : Type} [DataT α]

/-- Constructor, src/LocalLengthGroupSpace.cpp:24-29.  A negative vector size throws
`std::length_error`. -/
def LocalSpace.new (ds : Dataset α) (length : Int) : Res (LocalSpace α) :=
  let subCount := ds.itemLength - length + 1
  if ds.itemCount * subCount < 0 then .throw .lengthError
  else .ok { length := length, subCount := subCount, groups := [],
             memberMap := List.replicate (ds.itemCount * subCount).toNat Membership.default }

/-- State of the scan for the nearest group: groups (with caches), query (with cache), best distance,
`bestSoFarIndex` (`none` while uninitialised). -/
structure NearestState (α : Type) where
  groups : List (Group α)
  query : Series α
  best : α
  bestIdx : Option Int

/-- One step of the scans at src/LocalLengthGroupSpace.cpp:78-86 and 157-163. -/
def nearestStep (ds : Dataset α) (d : Dist α) (i : Int) (s : NearestState α) :
    Res (NearestState α) := do
  let g ← vget s.groups i
  let (dist, g, query) ← g.distanceFromCentroid ds s.query d s.best
  let groups ← vset s.groups i g
  if DataT.lt dist s.best then
    return { groups := groups, query := query, best := dist, bestIdx := some i }
  else
    return { s with groups := groups, query := query }

/-- The scan over all groups. -/
def nearest (ds : Dataset α) (d : Dist α) (groups : List (Group α)) (query : Series α)
    (dropout : α) : Res (NearestState α) :=
  forInt 0 (len groups) { groups := groups, query := query, best := dropout, bestIdx := none }
    (nearestStep ds d)

/-- Placing one sub-series, src/LocalLengthGroupSpace.cpp:73-97 -/
def placeOne (ds : Dataset α) (d : Dist α) (threshold : α) (idx start : Int) (ls : LocalSpace α) :
    Res (LocalSpace α) := do
  let v ← ds.getTimeSeries idx start (start + ls.length)
  let vals ← ds.resolve v
  let s ← nearest ds d ls.groups (Series.mk' vals) DataT.inf
  let groups := s.groups
  let (groups, bestIdx) ←
    if DataT.gt s.best (DataT.div threshold (DataT.ofInt 2)) || len groups == 0 then do
      let g : Group α := Group.new (len groups) ls.length ls.subCount
      let g ← g.setCentroid ds idx start
      pure (groups ++ [g], some (len groups))
    else pure (groups, s.bestIdx)
  match bestIdx with
  | none => .ub "uninitialised index"
  | some k => do
    let g ← vget groups k
    let (g, mm) ← g.addMember ls.memberMap idx start
    let groups ← vset groups k g
    return { ls with groups := groups, memberMap := mm }

/-- The progress test `counter % (totalTimeSeries / LOG_FREQ) == 0`,
src/LocalLengthGroupSpace.cpp:66-71 (only the division by zero matters). -/
def logProgress (doLog : Bool) (total : Int) : Res Unit :=
  if doLog ∧ total.tdiv 5 = 0 then .ub "modulo by zero" else .ok ()

/-- `generateGroups`, src/LocalLengthGroupSpace.cpp:48-102.  `doLog` is the outcome of the
elapsed-time test at lines 50-55. -/
def LocalSpace.generateGroups (ds : Dataset α) (d : Dist α) (threshold : α) (doLog : Bool)
    (ls : LocalSpace α) : Res (LocalSpace α) :=
  let total := ls.subCount * ds.itemCount
  forInt 0 ls.subCount ls fun start ls =>
    forInt 0 ds.itemCount ls fun idx ls => do
      logProgress doLog total
      placeOne ds d threshold idx start ls

/-- `getBestGroup`, src/LocalLengthGroupSpace.cpp:151-166.  Also returns the space and the query
with refreshed caches. -/
def LocalSpace.getBestGroup (ds : Dataset α) (ls : LocalSpace α) (query : Series α) (d : Dist α)
    (dropout : α) : Res ((Option Int × α) × LocalSpace α × Series α) := do
  let s ← nearest ds d ls.groups query dropout
  return ((s.bestIdx, s.best), { ls with groups := s.groups }, s.query)

/-- `getNumberOfGroups`, src/LocalLengthGroupSpace.cpp:104-107 -/
def LocalSpace.getNumberOfGroups (ls : LocalSpace α) : Int := len ls.groups

/-- `getGroup`, src/LocalLengthGroupSpace.cpp:109-115 -/
def LocalSpace.getGroup (ls : LocalSpace α) (idx : Int) : Res (Group α) :=
  if idx < 0 ∨ idx ≥ ls.getNumberOfGroups then .throw "Group index is out of range"
  else vget ls.groups idx

/-! ## `GlobalGroupSpace` -/

/-- src/GlobalGroupSpace.hpp:70-75.  The members `pairwiseDistance`, `warpedDistance`
are determined by `distanceName` once `loadDistance` has succeeded; `threshold` is never read. -/
structure GlobalSpace (α : Type) where
  locals : List (Option (LocalSpace α))
  distanceName : String

/-- State after construction or `reset` (src/GlobalGroupSpace.hpp:28, src/GlobalGroupSpace.cpp:27-34). -/
def GlobalSpace.fresh : GlobalSpace α := { locals := [], distanceName := "" }

/-- `group`, src/GlobalGroupSpace.cpp:43-58, on a fresh space; `doLog` gives the logging decision for each length.
Returns the outcome and the space left behind. -/
def GlobalSpace.group (ratio : α) (ds : Dataset α) (distanceName : String) (threshold : α)
    (doLog : Int → Bool) (gs : GlobalSpace α) : Eff (GlobalSpace α) Int :=
  let gs : GlobalSpace α := { gs with locals := [], distanceName := distanceName }
  match getDistance distanceName with
  | .throw e => (.throw e, gs)
  | .ub w => (.ub w, gs)
  | .ok dn =>
    if ds.itemLength + 1 < 0 then (.throw .lengthError, gs)
    else
      let locals0 : List (Option (LocalSpace α)) := List.replicate (ds.itemLength + 1).toNat none
      let run : Res (List (Option (LocalSpace α)) × Int) :=
        forInt 2 (ds.itemLength + 1) (locals0, 0) fun i s => do
          let ls ← LocalSpace.new ds i
          let ls ← ls.generateGroups ds (dn.fn ratio) threshold (doLog i)
          let locals ← vset s.1 i (some ls)
          return (locals, s.2 + ls.getNumberOfGroups)
      match run with
      | .ok (locals, n) => (.ok n, { gs with locals := locals })
      | .throw e => (.throw e, gs)
      | .ub w => (.ub w, gs)

/-- State of `generateTraverseOrder`. -/
structure OrderState where
  order : List Int
  low : Int
  high : Int
  lowStop : Bool
  highStop : Bool

/-- One iteration of the loop at src/GlobalGroupSpace.cpp:124-151. -/
def traverseStep (ratio : α) (queryLength totalLength : Int) (s : OrderState) :
    Res OrderState := do
  let s := if s.low < 2 then { s with lowStop := true } else s
  let s := if s.high > totalLength then { s with highStop := true } else s
  let s ←
    if !s.lowStop then do
      let r ← calculateWarpingBandSize ratio queryLength
      if s.low + r ≥ queryLength then
        pure { s with order := s.order ++ [s.low], low := s.low - 1 }
      else pure { s with lowStop := true }
    else pure s
  if !s.highStop then do
    let r ← calculateWarpingBandSize ratio s.high
    if queryLength + r ≥ s.high then
      pure { s with order := s.order ++ [s.high], high := s.high + 1 }
    else pure { s with highStop := true }
  else pure s

/-- The loop at src/GlobalGroupSpace.cpp:124-151. -/
def traverseLoop (ratio : α) (queryLength totalLength : Int) : Nat → OrderState → Res OrderState
  | fuel, s =>
    if s.lowStop && s.highStop then .ok s
    else
      match fuel with
      | 0 => .ub "diverges"
      | fuel + 1 => do
        let s ← traverseStep ratio queryLength totalLength s
        traverseLoop ratio queryLength totalLength fuel s

/-- `generateTraverseOrder`, src/GlobalGroupSpace.cpp:116-153.  Every iteration that does not
end the loop moves `low` or `high`, or sets a stop flag; the fuel covers that. -/
def generateTraverseOrder (ratio : α) (queryLength totalLength : Int) : Res (List Int) := do
  let s ← traverseLoop ratio queryLength totalLength
    (queryLength.toNat + totalLength.toNat + 3)
    { order := [queryLength], low := queryLength - 1, high := queryLength + 1,
      lowStop := false, highStop := false }
  return s.order

/-- State of the search over lengths: the space (with caches), the query (with cache), the best
distance, and the best group as (length, index). -/
structure SearchState (α : Type) where
  locals : List (Option (LocalSpace α))
  query : Series α
  best : α
  bestGroup : Option (Int × Int)

/-- One step of the loop at src/GlobalGroupSpace.cpp:69-78, for length `i`. -/
def searchStep (ds : Dataset α) (d : Dist α) (s : SearchState α) (i : Int) :
    Res (SearchState α) := do
  match ← vget s.locals i with
  | none => .ub "null dereference"
  | some ls => do
    let ((k, dist), ls, query) ← ls.getBestGroup ds s.query d s.best
    let locals ← vset s.locals i (some ls)
    if DataT.lt dist s.best then
      return { locals := locals, query := query, best := dist, bestGroup := k.map fun k => (i, k) }
    else return { s with locals := locals, query := query }

/-- The loop at src/GlobalGroupSpace.cpp:69-78. -/
def searchLoop (ds : Dataset α) (d : Dist α) : List Int → SearchState α → Res (SearchState α)
  | [], s => .ok s
  | i :: is, s => do
    let s ← searchStep ds d s i
    searchLoop ds d is s

/-- `GlobalGroupSpace::getBestMatch`, src/GlobalGroupSpace.cpp:60-80.  `junk` is the content of
freshly allocated envelope arrays. Also returns the space with refreshed envelope caches. -/
def GlobalSpace.getBestMatch (junk ratio : α) (ds : Dataset α) (gs : GlobalSpace α)
    (query : Series α) : Res (Cand α × GlobalSpace α) := do
  if query.length ≤ 1 then .throw "Length of query must be larger than 1"
  else
    let d : Dist α := cascadeDistance junk ratio
    let order ← generateTraverseOrder ratio query.length (len gs.locals - 1)
    let s ← searchLoop ds d order
      { locals := gs.locals, query := query, best := DataT.inf, bestGroup := none }
    match s.bestGroup with
    | none => .ub "null dereference"
    | some (l, k) => do
      match ← vget s.locals l with
      | none => .ub "null dereference"
      | some ls => do
        let g ← vget ls.groups k
        let cand ← g.getBestMatch ds ls.memberMap s.query d
        return (cand, { gs with locals := s.locals })

/-- `grouped`, src/GlobalGroupSpace.cpp:82-85 -/
def GlobalSpace.grouped (gs : GlobalSpace α) : Bool := decide (0 < gs.locals.length)

end Onex
