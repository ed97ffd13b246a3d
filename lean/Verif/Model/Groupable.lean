import Verif.Model.GroupIO

/-!
# `GroupableTimeSeriesSet` (src/GroupableTimeSeriesSet.hpp, src/GroupableTimeSeriesSet.cpp)
-/

namespace Onex

/-- A `GroupableTimeSeriesSet`: the inherited dataset, the groups (`none` is `nullptr`) and
the threshold (`none` while uninitialised). -/
structure GSet (α : Type) where
  ds : Dataset α
  groups : Option (GlobalSpace α)
  threshold : Option α

/-- What a call needs from outside: the band ratio (global variable, src/distance/Distance.cpp:126),
contents of uninitialised memory, number formatting, number parsing and the logging decisions. -/
structure Env (α : Type) where
  ratio : α
  junk : α
  io : NumIO α
  stod : Text → Stod α
  doLog : Int → Bool

variable {α : Type} [DataT α]

namespace GSet

/-- A newly constructed set. -/
def empty : GSet α := { ds := Dataset.empty, groups := none, threshold := none }

/-- `isGrouped`, src/GroupableTimeSeriesSet.cpp:37-40 -/
def isGrouped (s : GSet α) : Bool := s.groups.isSome

/-- `reset`, src/GroupableTimeSeriesSet.cpp:42-46 -/
def reset (s : GSet α) : GSet α := { s with groups := none }

/-- Inherited `loadData`: groups are left alone. -/
def loadData (env : Env α) (file : Option Text) (filePath : String) (maxNumRow startCol : Int)
    (seps : Text) (s : GSet α) : Eff (GSet α) Unit :=
  let (r, ds) := s.ds.loadData env.stod file filePath maxNumRow startCol seps
  (r, { s with ds := ds })

/-- Inherited `normalize`. -/
def normalize (s : GSet α) : Eff (GSet α) (α × α) :=
  let (r, ds) := s.ds.normalize
  (r, { s with ds := ds })

/-- Inherited `PAA`. -/
def PAA (env : Env α) (n : Int) (s : GSet α) : Eff (GSet α) Unit :=
  let (r, ds) := s.ds.PAA env.junk n
  (r, { s with ds := ds })

/-- `groupAllLengths`, src/GroupableTimeSeriesSet.cpp:21-35 -/
def groupAllLengths (env : Env α) (distanceName : String) (threshold : α) (s : GSet α) :
    Eff (GSet α) Int :=
  if !s.ds.isLoaded then (.throw "No data to group", s)
  else
    let s := s.reset
    let (r, gs) := GlobalSpace.fresh.group env.ratio s.ds distanceName threshold env.doLog
    let s := { s with groups := some gs }
    match r with
    | .ok n => (.ok n, { s with threshold := some threshold })
    | r => (r, s)

/-- `saveGroups`, src/GroupableTimeSeriesSet.cpp:48-68: the text written.  `canOpen` is whether the file could be
opened for writing. -/
def saveGroups (env : Env α) (canOpen : Bool) (sizeOnly : Bool) (s : GSet α) : Res Text :=
  match s.groups with
  | none => .throw "No group found"
  | some gs =>
    if canOpen then
      match s.threshold with
      | none => .ub "uninitialised read"
      | some st => do
        let t ← gs.saveGroups env.io s.ds sizeOnly
        return showInt 1 ++ ' ' :: (env.io.show6 st ++ ' ' :: (showInt s.ds.itemCount ++ ' ' ::
          (showInt s.ds.itemLength ++ '\n' :: t)))
    else .throw "Cannot open file"

/-- `loadGroups`, src/GroupableTimeSeriesSet.cpp:70-102.  An `int` left unmodified by a failed extraction is
uninitialised; reading it is undefined. -/
def loadGroups (env : Env α) (file : Option Text) (s : GSet α) : Eff (GSet α) Int :=
  match file with
  | none => (.throw "Cannot open file", s)
  | some text =>
    let st : Stream := { rest := text, fail := false }
    let (version, st) := readInt st
    let (threshold, st) := readData env.io st
    let (cnt, st) := readInt st
    let (ln, st) := readInt st
    match version with
    | none => (.ub "uninitialised read", s)
    | some version =>
      if version ≠ 1 then (.throw "Incompatible file version", s)
      else
        match cnt with
        | none => (.ub "uninitialised read", s)
        | some cnt =>
          if cnt ≠ s.ds.itemCount then (.throw "Incompatible item count", s)
          else
            match ln with
            | none => (.ub "uninitialised read", s)
            | some ln =>
              if ln ≠ s.ds.itemLength then (.throw "Incompatible item length", s)
              else
                let s := { s.reset with threshold := threshold }
                let (r, gs) := GlobalSpace.fresh.loadGroups env.io s.ds st
                (r, { s with groups := some gs })

/-- `getBestMatch`, src/GroupableTimeSeriesSet.cpp:104-111.  The set changes only in its envelope caches
(kept unchanged in the model when the search throws midway). -/
def getBestMatch (env : Env α) (query : Series α) (s : GSet α) : Eff (GSet α) (Cand α) :=
  match s.groups with
  | none => (.throw "Dataset is not grouped", s)
  | some gs =>
    match gs.getBestMatch env.junk env.ratio s.ds query with
    | .ok (c, gs) => (.ok c, { s with groups := some gs })
    | .throw e => (.throw e, s)
    | .ub w => (.ub w, s)

end GSet

end Onex
