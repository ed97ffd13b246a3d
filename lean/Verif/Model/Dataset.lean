import Verif.Model.Distance

/-!
# `TimeSeriesSet` (src/TimeSeriesSet.hpp, src/TimeSeriesSet.cpp)

Files are character lists.  `std::stod` is a parameter; so is the text `operator<<` produces
for a `data_t`.
-/

namespace Onex

abbrev Text := List Char

/-- A method that may throw after having changed the object: outcome and new object state.
After `ub` the state component is meaningless. -/
abbrev Eff (σ β : Type) := Res β × σ

/-- `TimeSeriesSet`, src/TimeSeriesSet.hpp:140-147.  `data = none` is `nullptr`.  `gen` is a ghost
counter identifying the allocation `data` points to: it changes whenever the pointer is
replaced, so that views made before are recognisably dangling. -/
structure Dataset (α : Type) where
  data : Option (List α)
  gen : Nat
  itemLength : Int
  itemCount : Int
  filePath : String
  normalized : Bool

/-- A non-owning `TimeSeries` pointing into a dataset buffer: the constructor
`TimeSeries(data, index, start, end)`, src/TimeSeries.hpp:48-51, with
`data = buffer + base` of allocation `gen`. -/
structure View where
  gen : Nat
  base : Int
  index : Int
  start : Int
  stop : Int
deriving DecidableEq, Repr

/-- `getLength()` of a view: `end - start`, src/TimeSeries.hpp:50 -/
def View.length (v : View) : Int := v.stop - v.start

namespace Dataset
variable {α : Type}

/-- Default constructor, src/TimeSeriesSet.hpp:30-31 (and `data = nullptr`, line 141). -/
def empty : Dataset α :=
  { data := none, gen := 0, itemLength := 0, itemCount := 0, filePath := "", normalized := false }

/-- `clearData`, src/TimeSeriesSet.cpp:184-190.  `filePath` and `normalized` are left alone. -/
def clear (ds : Dataset α) : Dataset α :=
  { ds with data := none, gen := ds.gen + 1, itemCount := 0, itemLength := 0 }

/-- `isLoaded`, src/TimeSeriesSet.cpp:312-315 -/
def isLoaded (ds : Dataset α) : Bool := ds.data.isSome

/-- The buffer; dereferencing the null pointer is undefined. -/
def buf (ds : Dataset α) : Res (List α) :=
  match ds.data with
  | some b => .ok b
  | none => .ub "null dereference"

/-- `getTimeSeries`, src/TimeSeriesSet.cpp:192-207 -/
def getTimeSeries (ds : Dataset α) (index start stop : Int) : Res View :=
  if index < 0 ∨ index ≥ ds.itemCount then .throw "Invalid time series index"
  else if start < 0 ∧ stop < 0 then
    .ok { gen := ds.gen, base := index * ds.itemLength, index := index, start := 0,
          stop := ds.itemLength }
  else if start < 0 ∨ start ≥ stop ∨ stop > ds.itemLength then
    .throw "Invalid starting or ending position of a time series"
  else
    .ok { gen := ds.gen, base := index * ds.itemLength, index := index, start := start,
          stop := stop }

/-- The values a view denotes: `data[start] .. data[end-1]`.  Undefined when the allocation is
gone or the window leaves the buffer. Simplifications: the whole window is resolved at
once, so a dangling view is `ub` even if no element of it would be read; a view of
negative length denotes no values (like one of length 0). -/
def resolve (ds : Dataset α) (v : View) : Res (List α) :=
  if v.gen ≠ ds.gen then .ub "use after free"
  else if v.stop ≤ v.start then .ok []
  else do
    let b ← ds.buf
    if 0 ≤ v.base + v.start ∧ v.base + v.stop ≤ len b then
      .ok ((b.drop (v.base + v.start).toNat).take (v.stop - v.start).toNat)
    else .ub "window outside buffer"

/-- Reading element `idx` through `operator[]` of a view, src/TimeSeries.cpp:62-68: bounds check against
the view's length, then `data[start + idx]`. -/
def viewGet (ds : Dataset α) (v : View) (idx : Int) : Res α :=
  if idx < 0 ∨ idx ≥ v.length then .throw "Data point index is out of range"
  else if v.gen ≠ ds.gen then .ub "use after free"
  else do
    let b ← ds.buf
    vget b (v.base + v.start + idx)

end Dataset

/-! ## Loading -/

/-- Outcome of `std::stod`. -/
inductive Stod (α : Type) where
  | val (x : α)
  | invalid
  | range

/-- The successive results of `std::getline(f, line)` on a file with contents `t`: a newline
ends a line, and a final line without newline counts if it is not empty. -/
def getLines : Text → List Text
  | [] => []
  | c :: t =>
    if c = '\n' then [] :: getLines t
    else
      match getLines t with
      | [] => [[c]]
      | l :: ls => (c :: l) :: ls

/-- `boost::char_separator` with dropped delimiters `seps` and empty tokens dropped,
src/TimeSeriesSet.cpp:95. -/
def tokenize (seps : Text) (line : Text) : List Text :=
  (line.splitOnP (fun c => seps.contains c)).filter (fun t => !t.isEmpty)

section load
variable {α : Type} [DataT α]

/-- The token loop for one row, src/TimeSeriesSet.cpp:123-147: `length` is the number of columns. -/
def loadTokens (stod : Text → Stod α) (row length startCol : Int) :
    Int → List Text → List α → Res (List α)
  | _, [], data => .ok data
  | col, tok :: toks, data =>
    if col ≥ startCol then
      match stod tok with
      | .val x => do
        let data ← vset data (row * (length - startCol) + (col - startCol)) x
        loadTokens stod row length startCol (col + 1) toks data
      | .invalid => .throw "Dataset file contains unparsable text"
      | .range => .throw "Values are out of range"
    else loadTokens stod row length startCol (col + 1) toks data

/-- The row loop, src/TimeSeriesSet.cpp:98-152, over the remaining lines to be read.  State: `length`
(-1 before the first row) and the buffer. `memset` zeroes the fresh buffer (with
`SINGLE_PRECISION` it would overrun it; not modelled). -/
def loadRows (stod : Text → Stod α) (seps : Text) (maxNumRow startCol : Int) :
    Int → List Text → Int → Option (List α) → Res (Int × Option (List α))
  | _, [], length, data => .ok (length, data)
  | row, line :: lines, length, data => do
    let toks := tokenize seps line
    let (length, data) ←
      if row = 0 then
        pure (len toks, some (List.replicate (maxNumRow * len toks).toNat DataT.zero))
      else if length ≠ len toks then
        .throw "File contains time series with inconsistent lengths"
      else pure (length, data)
    match data with
    | none => .ub "null dereference"
    | some d => do
      let d ← loadTokens stod row length startCol 0 toks d
      loadRows stod seps maxNumRow startCol (row + 1) lines length (some d)

/-- Number of rows to read, src/TimeSeriesSet.cpp:86-91. -/
def rowLimit (maxNumRow : Int) (nLines : Int) : Int :=
  if maxNumRow ≤ 0 then nLines else min maxNumRow nLines

/-- `loadData`, src/TimeSeriesSet.cpp:74-165.  `file = none` models a file that cannot be opened.
I/O errors while reading (`f.bad()`) are not modelled. -/
def Dataset.loadData (stod : Text → Stod α) (file : Option Text) (filePath : String)
    (maxNumRow startCol : Int) (seps : Text) (ds : Dataset α) : Eff (Dataset α) Unit :=
  let ds := ds.clear
  match file with
  | none => (.throw (.onex <| "Cannot open " ++ filePath), ds)
  | some text =>
    let lines := getLines text
    let maxNumRow := rowLimit maxNumRow (len lines)
    let rows := lines.take maxNumRow.toNat
    match loadRows stod seps maxNumRow startCol 0 rows (-1) none with
    | .throw msg => (.throw msg, ds.clear)
    | .ub w => (.ub w, ds)
    | .ok (length, data) =>
      (.ok (), { ds with data := data, itemCount := len rows, itemLength := length - startCol,
                         filePath := filePath })

/-- `saveData`, src/TimeSeriesSet.cpp:167-182: the text written.  `shw` is what `operator<<` prints
for a value (default precision). -/
def Dataset.saveText (shw : α → Text) (ds : Dataset α) (separator : Char) : Res Text :=
  forInt 0 ds.itemCount [] fun i out => do
    let out ← forInt 0 ds.itemLength out fun j out => do
      let b ← ds.buf
      let v ← vget b (i * ds.itemLength + j)
      return out ++ shw v ++ [separator]
    return out ++ ['\n']

/-- `saveData` including opening the file: `canOpen = false` models failure to open. -/
def Dataset.saveData (shw : α → Text) (canOpen : Bool) (filePath : String) (separator : Char)
    (ds : Dataset α) : Res Text :=
  if canOpen then ds.saveText shw separator else .throw (.onex <| "Cannot open " ++ filePath)

end load

/-! ## Normalisation and PAA -/

section transform
variable {α : Type} [DataT α]
open DataT

/-- Conversion `int` to `unsigned int`. -/
def toUnsigned (z : Int) : Int := z % 4294967296

/-- `for (i = lo; i < hi; i += 2)` -/
def forInt2 {σ : Type} (lo hi : Int) (s : σ) (body : Int → σ → Res σ) : Res σ :=
  forInt 0 ((hi - lo + 1) / 2) s fun k s => body (lo + 2 * k) s

/-- The min/max scan of one row, src/TimeSeriesSet.cpp:227-260.  `length` is the total number
of values, `mm = (MIN, MAX)`. -/
def scanRow (b : List α) (length itemLength ts : Int) (mm : α × α) : Res (α × α) := do
  let i : Int := if length.tmod 2 ≠ 0 then 1 else 0
  let mm ←
    if i ≠ 0 then do
      let v ← vget b (ts * itemLength)
      let mn := if lt v mm.1 then v else mm.1
      let mx := if gt v mm.2 then v else mm.2
      pure (mn, mx)
    else pure mm
  forInt2 i (toUnsigned (itemLength - 1)) mm fun i mm => do
    let x ← vget b (ts * itemLength + i)
    let y ← vget b (ts * itemLength + (i + 1))
    let (x, y) := if gt x y then (y, x) else (x, y)
    let mx := if gt y mm.2 then y else mm.2
    let mn := if lt x mm.1 then x else mm.1
    return (mn, mx)

/-- Apply `g` to every element row by row, the double loops at src/TimeSeriesSet.cpp:271-277 and 283-289. -/
def mapRows (g : α → α) (itemCount itemLength : Int) (b : List α) : Res (List α) :=
  forInt 0 itemCount b fun ts b =>
    forInt 0 (toUnsigned itemLength) b fun i b => do
      let v ← vget b (ts * itemLength + i)
      vset b (ts * itemLength + i) (g v)

/-- `normalize`, src/TimeSeriesSet.cpp:209-293. -/
def Dataset.normalize (ds : Dataset α) : Eff (Dataset α) (α × α) :=
  let length := ds.itemLength * ds.itemCount
  if length = 0 then (.throw "No data to normalize", ds)
  else
    let run : Res (Dataset α × (α × α)) := do
      let b ← ds.buf
      let (mn, mx) ← forInt 0 ds.itemCount (inf, ninf) fun ts mm => scanRow b length ds.itemLength ts mm
      let diff := sub mx mn
      let b ←
        if eq diff zero then
          if !(eq mx zero) then mapRows (fun _ => zero) ds.itemCount ds.itemLength b
          else pure b
        else mapRows (fun v => div (sub v mn) diff) ds.itemCount ds.itemLength b
      return ({ ds with data := some b, normalized := true }, (mn, mx))
    match run with
    | .ok (ds', mm) => (.ok mm, ds')
    | .throw m => (.throw m, ds)
    | .ub w => (.ub w, ds)

/-- `calcPAALength`, src/TimeSeriesSet.cpp:32-35 (C++ division truncates). -/
def calcPAALength (srcLength n : Int) : Int := (srcLength - 1).tdiv n + 1

/-- Loop state of `doPAA`: destination buffer, `sum`, `count`. -/
structure PaaState (α : Type) where
  dest : List α
  sum : α
  count : Int

/-- `doPAA`, src/TimeSeriesSet.cpp:37-52, reading from `src + srcOff` and writing to
`dest + destOff`. -/
def doPAA (src : List α) (srcOff : Int) (dest : List α) (destOff : Int) (srcLength n : Int) :
    Res (List α) := do
  let s ← forInt 0 srcLength ({ dest := dest, sum := zero, count := 0 } : PaaState α) fun i s => do
    let count := s.count + 1
    let v ← vget src (srcOff + i)
    let sum := add s.sum v
    if count = n ∨ i = srcLength - 1 then do
      let dest ← vset s.dest (destOff + i.tdiv n) (div sum (ofInt count))
      return { dest := dest, sum := zero, count := 0 }
    else return { dest := s.dest, sum := sum, count := count }
  return s.dest

/-- `PAA`, src/TimeSeriesSet.cpp:295-310.  The new buffer initially holds arbitrary values `junk`;
a negative size makes `new[]` throw `std::bad_array_new_length`. -/
def Dataset.PAA (junk : α) (n : Int) (ds : Dataset α) : Eff (Dataset α) Unit :=
  if n ≤ 0 then (.throw "Block size must be positive", ds)
  else
    let newItemLength := calcPAALength ds.itemLength n
    if ds.itemCount * newItemLength < 0 then (.throw .badAlloc, ds) else
    let fresh := List.replicate (ds.itemCount * newItemLength).toNat junk
    let run : Res (List α) := forInt 0 ds.itemCount fresh fun ts nb => do
      let b ← ds.buf
      doPAA b (ts * ds.itemLength) nb (ts * newItemLength) ds.itemLength n
    match run with
    | .ok nb => (.ok (), { ds with data := some nb, gen := ds.gen + 1, itemLength := newItemLength })
    | .throw m => (.throw m, ds)
    | .ub w => (.ub w, ds)

/-- `distanceBetween`, src/TimeSeriesSet.cpp:317-322 -/
def Dataset.distanceBetween (ratio : α) (ds : Dataset α) (idx start length : Int) (other : List α)
    (distanceName : String) : Res α := do
  let d ← getDistance distanceName
  let v ← ds.getTimeSeries idx start (start + length)
  let vals ← ds.resolve v
  let (x, _, _) ← d.fn ratio (Series.mk' vals) (Series.mk' other) inf
  return x

end transform

end Onex
