import Verif.Model.Groupable

/-!
# `OnexAPI` (src/OnexAPI.hpp, src/OnexAPI.cpp)
-/

namespace Onex

/-- `dataset_info_t`, src/OnexAPI.hpp:18-33 -/
structure DatasetInfo where
  id : Int
  name : String
  itemCount : Int
  itemLength : Int
  isGrouped : Bool
  isNormalized : Bool
deriving DecidableEq, Repr

/-- `OnexAPI`, src/OnexAPI.hpp:146-147, together with the global `warpingBandRatio`
(src/distance/Distance.cpp:126).  `none` is `nullptr`. -/
structure Api (α : Type) where
  slots : List (Option (GSet α))
  count : Int
  ratio : α

variable {α : Type} [DataT α]

namespace Api

/-- A fresh `OnexAPI` object. -/
def init (ratio : α) : Api α := { slots := [], count := 0, ratio := ratio }

/-- `_checkDatasetIndex`, src/OnexAPI.cpp:157-163, followed by the access to the dataset (the
comparison of `int` with `size_t` is only reached for a non-negative index). -/
def get (a : Api α) (index : Int) : Res (GSet α) :=
  if index < 0 ∨ index ≥ len a.slots then .throw "There is no dataset with given index"
  else
    match a.slots[index.toNat]? with
    | some (some s) => .ok s
    | _ => .throw "There is no dataset with given index"

/-- Store the new state of the dataset at `index`. -/
def put (a : Api α) (index : Int) (s : GSet α) : Api α :=
  { a with slots := a.slots.set index.toNat (some s) }

/-- Run a method of the dataset at `index`, keeping its effects also when it throws. -/
def on {β : Type} (a : Api α) (index : Int) (f : GSet α → Eff (GSet α) β) : Eff (Api α) β :=
  match a.get index with
  | .ok s =>
    let (r, s) := f s
    (r, a.put index s)
  | .throw e => (.throw e, a)
  | .ub w => (.ub w, a)

/-- The info record built at src/OnexAPI.cpp:89-95 -/
def infoOf (index : Int) (s : GSet α) : DatasetInfo :=
  { id := index, name := s.ds.filePath, itemCount := s.ds.itemCount,
    itemLength := s.ds.itemLength, isGrouped := s.isGrouped, isNormalized := s.ds.normalized }

/-- `getDatasetInfo`, src/OnexAPI.cpp:85-96 -/
def getDatasetInfo (a : Api α) (index : Int) : Res DatasetInfo := do
  let s ← a.get index
  return infoOf index s

/-- The search for a free slot, src/OnexAPI.cpp:30-38; `-1` if there is none.  `i` is the index
of the head of the list. -/
def findFree : List (Option (GSet α)) → Int → Int
  | [], _ => -1
  | none :: _, i => i
  | some _ :: rest, i => findFree rest (i + 1)

/-- `loadDataset`, src/OnexAPI.cpp:17-49 -/
def loadDataset (env : Env α) (file : Option Text) (filePath : String) (maxNumRow startCol : Int)
    (seps : Text) (a : Api α) : Eff (Api α) DatasetInfo :=
  let (r, newSet) := (GSet.empty : GSet α).loadData env file filePath maxNumRow startCol seps
  match r with
  | .throw e => (.throw e, a)
  | .ub w => (.ub w, a)
  | .ok () =>
    let nextIndex := findFree a.slots 0
    let (slots, nextIndex) :=
      if nextIndex < 0 then (a.slots ++ [none], len a.slots) else (a.slots, nextIndex)
    match vset slots nextIndex (some newSet) with
    | .ok slots =>
      let a := { a with slots := slots, count := a.count + 1 }
      (a.getDatasetInfo nextIndex, a)
    | .throw e => (.throw e, a)
    | .ub w => (.ub w, a)

/-- `saveDataset`, src/OnexAPI.cpp:51-55 -/
def saveDataset (env : Env α) (a : Api α) (index : Int) (canOpen : Bool) (filePath : String)
    (separator : Char) : Res Text := do
  let s ← a.get index
  s.ds.saveData env.io.show6 canOpen filePath separator

/-- `unloadDataset`, src/OnexAPI.cpp:57-68 -/
def unloadDataset (index : Int) (a : Api α) : Eff (Api α) Unit :=
  match a.get index with
  | .throw e => (.throw e, a)
  | .ub w => (.ub w, a)
  | .ok _ =>
    let slots := a.slots.set index.toNat none
    let slots := if index = len slots - 1 then slots.dropLast else slots
    (.ok (), { a with slots := slots, count := a.count - 1 })

/-- `unloadAllDataset`, src/OnexAPI.cpp:70-78 -/
def unloadAllDataset (a : Api α) : Api α := { a with slots := [], count := 0 }

/-- `getDatasetCount`, src/OnexAPI.cpp:80-83 -/
def getDatasetCount (a : Api α) : Int := a.count

/-- `getAllDatasetInfo`, src/OnexAPI.cpp:98-109 -/
def getAllDatasetInfo (a : Api α) : Res (List DatasetInfo) :=
  forInt 0 (len a.slots) [] fun i info => do
    match ← vget a.slots i with
    | none => return info
    | some _ => do
      let x ← a.getDatasetInfo i
      return info ++ [x]

/-- `normalizeDataset`, src/OnexAPI.cpp:111-115 -/
def normalizeDataset (index : Int) (a : Api α) : Eff (Api α) (α × α) := a.on index GSet.normalize

/-- `groupDataset`, src/OnexAPI.cpp:117-121 -/
def groupDataset (env : Env α) (index : Int) (threshold : α) (a : Api α) : Eff (Api α) Int :=
  a.on index (GSet.groupAllLengths { env with ratio := a.ratio } "euclidean" threshold)

/-- `saveGroup`, src/OnexAPI.cpp:123-127 -/
def saveGroup (env : Env α) (a : Api α) (index : Int) (canOpen sizeOnly : Bool) : Res Text := do
  let s ← a.get index
  s.saveGroups env canOpen sizeOnly

/-- `loadGroup`, src/OnexAPI.cpp:129-133 -/
def loadGroup (env : Env α) (index : Int) (file : Option Text) (a : Api α) : Eff (Api α) Int :=
  a.on index (GSet.loadGroups { env with ratio := a.ratio } file)

/-- `setWarpingBandRatio`, src/OnexAPI.cpp:135-138 -/
def setWarpingBandRatio (ratio : α) (a : Api α) : Api α := { a with ratio := ratio }

/-- `getBestMatch`, src/OnexAPI.cpp:140-147.  The query's values are read from the query
dataset first; nothing modifies them during the search. -/
def getBestMatch (env : Env α) (resultIdx queryIdx index start stop : Int) (a : Api α) :
    Eff (Api α) (Cand α) :=
  let q : Res (Series α) := do
    let _ ← a.get resultIdx
    let qs ← a.get queryIdx
    let v ← qs.ds.getTimeSeries index start stop
    let vals ← qs.ds.resolve v
    return Series.mk' vals
  match q with
  | .throw e => (.throw e, a)
  | .ub w => (.ub w, a)
  | .ok q => a.on resultIdx (GSet.getBestMatch { env with ratio := a.ratio } q)

/-- `PAA`, src/OnexAPI.cpp:149-154 -/
def PAA (env : Env α) (index n : Int) (a : Api α) : Eff (Api α) DatasetInfo :=
  match a.on index (GSet.PAA env n) with
  | (.ok (), a) => (a.getDatasetInfo index, a)
  | (.throw e, a) => (.throw e, a)
  | (.ub w, a) => (.ub w, a)

end Api

/-! ## Calls as data, for statements about histories -/

/-- One API call, with the answer of the file system where it needs one. -/
inductive Call (α : Type) where
  | load (file : Option Text) (path : String) (maxNumRow startCol : Int) (seps : Text)
  | save (index : Int) (canOpen : Bool) (path : String) (separator : Char)
  | unload (index : Int)
  | unloadAll
  | info (index : Int)
  | allInfo
  | normalize (index : Int)
  | group (index : Int) (threshold : α)
  | saveGroup (index : Int) (canOpen sizeOnly : Bool)
  | loadGroup (index : Int) (file : Option Text)
  | setRatio (ratio : α)
  | bestMatch (resultIdx queryIdx index start stop : Int)
  | paa (index n : Int)

/-- What a call returns. -/
inductive Ans (α : Type) where
  | unit
  | info (i : DatasetInfo)
  | infos (l : List DatasetInfo)
  | int (n : Int)
  | pair (p : α × α)
  | text (t : Text)
  | cand (c : Cand α)

/-- Map over an outcome. -/
def Res.map {β γ : Type} (f : β → γ) : Res β → Res γ
  | .ok b => .ok (f b)
  | .throw e => .throw e
  | .ub w => .ub w

/-- Run one call. -/
def Api.step (env : Env α) (a : Api α) : Call α → Res (Ans α) × Api α
  | .load file path m sc seps =>
    let (r, a) := a.loadDataset env file path m sc seps
    (r.map .info, a)
  | .save i c p s => ((a.saveDataset env i c p s).map .text, a)
  | .unload i =>
    let (r, a) := a.unloadDataset i
    (r.map fun _ => .unit, a)
  | .unloadAll => (.ok .unit, a.unloadAllDataset)
  | .info i => ((a.getDatasetInfo i).map .info, a)
  | .allInfo => (a.getAllDatasetInfo.map .infos, a)
  | .normalize i =>
    let (r, a) := a.normalizeDataset i
    (r.map .pair, a)
  | .group i st =>
    let (r, a) := a.groupDataset env i st
    (r.map .int, a)
  | .saveGroup i c s => ((a.saveGroup env i c s).map .text, a)
  | .loadGroup i f =>
    let (r, a) := a.loadGroup env i f
    (r.map .int, a)
  | .setRatio r => (.ok .unit, a.setWarpingBandRatio r)
  | .bestMatch r q i s e =>
    let (x, a) := a.getBestMatch env r q i s e
    (x.map .cand, a)
  | .paa i n =>
    let (r, a) := a.PAA env i n
    (r.map .info, a)

/-- Run a history of calls, each with its own environment (clock, uninitialised memory). Exceptions
do not stop the caller; undefined behaviour does (`none`). -/
def Api.run (a : Api α) : List (Env α × Call α) → Option (Api α)
  | [] => some a
  | (env, c) :: cs =>
    match a.step env c with
    | (.ub _, _) => none
    | (_, a) => Api.run a cs

end Onex
