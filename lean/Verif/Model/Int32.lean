import Verif.Model.Groupable

/-!
# The same functions with 32-bit `int`

Elsewhere `int` is the unbounded `Int`.  Here the functions that do arithmetic on `int`s are written once
more with every result that is not a `data_t` checked against the range of a 32-bit `int`; leaving the range is
undefined behaviour (`ub "signed overflow"`).  Apart from the checks the definitions repeat those of the other
model files, and call them wherever a part does no arithmetic.

Checks are placed at the head of the block that evaluates the expression, so an operand that
`&&` or an untaken branch would skip is checked all the same: these versions are defined at most where the
code is.  Not checked: increments of loop variables (they stop at a bound that is itself an `int`), `size_t`
arithmetic, and `start + idx` in `TimeSeries::operator[]` (below `end`).
-/

namespace Onex

/-- The value of an `int` expression must be representable. -/
def ck (x : Int) : Res Unit := if inIntRange x then .ok () else .ub "signed overflow"

variable {α : Type} [DataT α]

open DataT

/-! ## Distances -/

/-- `calculateWarpingBandSize`, src/distance/Distance.cpp:132-136 -/
def calculateWarpingBandSize32 (ratio : α) (length : Int) : Res Int := do
  ck (length - 1)
  calculateWarpingBandSize ratio length

/-- `_euc_norm_dtw`, src/distance/Distance.cpp:46-49: `2 * std::max(...)` is an `int`. -/
def eucNormDtw32 (total : α) (l1 l2 : Int) : Res α := do
  ck (2 * Max.max l1 l2)
  return eucNormDtw total l1 l2

/-- The tests at src/distance/Distance.cpp:101-105 compare `i - r`, `j - 1`, `i + r` and so on. -/
def warpedCell32 (a b : List α) (r i : Int) (j : Int) (s : Mat α × α) : Res (Mat α × α) := do
  ck (i - r)
  ck (i + r)
  ck (j - r)
  ck (j + r)
  ck (i - 1)
  ck (j - 1)
  warpedCell a b r i j s

/-- One row, src/distance/Distance.cpp:93-120 -/
def warpedRow32 (a b : List α) (r : Int) (idropout : α) (i : Int) (s : Mat α × Bool) :
    Res (Step (Mat α × Bool)) := do
  ck (i - r)
  ck (i + r)
  ck (Min.min (i + r) (len b - 1) + 1)
  let (cost, bestSoFar) ←
    forInt (Max.max (i - r) 0) (Min.min (i + r) (len b - 1) + 1) (s.1, inf) (warpedCell32 a b r i)
  if gt bestSoFar idropout then return .brk (cost, true)
  else return .next (cost, s.2)

/-- `warpedDistance` after the band size is known, src/distance/Distance.cpp:61-123. -/
def warpedDistanceBand32 (r : Int) (a b : List α) (dropout : α) : Res α := do
  let m := len a
  let n := len b
  let idropout := eucInormDtw dropout m n
  if m = 1 ∧ n = 1 then
    let x ← tsGet a 0
    let y ← tsGet b 0
    eucNormDtw32 (euc x y) m n
  else
    let cost : Mat α := List.replicate m.toNat (List.replicate n.toNat zero)
    ck (m - 1)
    ck (n - 1)
    let cost ← mset cost (m - 1) (n - 1) inf
    let x ← tsGet a 0
    let y ← tsGet b 0
    let cost ← mset cost 0 0 (euc x y)
    ck (2 * r)
    ck (2 * r + 1)
    let cost ← forInt 1 (Min.min (2 * r + 1) m) cost fun i cost => do
      let p ← mget cost (i - 1) 0
      let x ← tsGet a i
      let y ← tsGet b 0
      mset cost i 0 (add p (euc x y))
    let cost ← forInt 1 (Min.min (2 * r + 1) n) cost fun j cost => do
      let p ← mget cost 0 (j - 1)
      let x ← tsGet a 0
      let y ← tsGet b j
      mset cost 0 j (add p (euc x y))
    let (cost, dropped) ← forBrk 1 m (cost, false) (warpedRow32 a b r idropout)
    let result ← if dropped then pure inf else mget cost (m - 1) (n - 1)
    eucNormDtw32 result m n

/-- `warpedDistance`, src/distance/Distance.cpp:56-124 -/
def warpedDistance32 (ratio : α) (a b : List α) (dropout : α) : Res α := do
  let r ← calculateWarpingBandSize32 ratio (Max.max (len a) (len b))
  warpedDistanceBand32 r a b dropout

namespace Deque

/-- src/lib/deque.cpp:21-28 -/
def pushBack32 (d : Deque) (v : Int) : Res Deque := do
  ck (d.r - 1)
  ck (d.capacity - 1)
  ck (d.size + 1)
  d.pushBack v

/-- src/lib/deque.cpp:31-37 -/
def popFront32 (d : Deque) : Res Deque := do
  ck (d.f - 1)
  ck (d.capacity - 1)
  ck (d.size - 1)
  d.popFront

/-- src/lib/deque.cpp:40-44 -/
def popBack32 (d : Deque) : Res Deque := do
  ck (d.r + 1)
  ck (d.size - 1)
  d.popBack

/-- src/lib/deque.cpp:47-54 -/
def front32 (d : Deque) : Res Int := do
  ck (d.f - 1)
  ck (d.capacity - 1)
  d.front

/-- src/lib/deque.cpp:57-61 -/
def back32 (d : Deque) : Res Int := do
  ck (d.r + 1)
  d.back

end Deque

/-- The inner loops at src/lib/trillionDTW.cpp:36-37 and 42-43 -/
def popWhile32 (cmp : α → α → Bool) (t : List α) (ti : α) : Nat → Deque → Res Deque
  | 0, d => if d.empty then .ok d else .ub "diverges"
  | fuel + 1, d =>
    if d.empty then .ok d
    else do
      let b ← d.back32
      let tb ← vget t b
      if cmp ti tb then
        let d ← d.popBack32
        popWhile32 cmp t ti fuel d
      else .ok d

/-- Body of the first loop, src/lib/trillionDTW.cpp:28-50. -/
def lemireBody1_32 (t : List α) (r : Int) (i : Int) (s : LemireState α) : Res (LemireState α) := do
  let s ←
    if i > r then do
      ck (i - r)
      ck (i - r - 1)
      let uf ← s.du.front32
      let tu ← vget t uf
      let u ← vset s.u (i - r - 1) tu
      let lf ← s.dl.front32
      let tl ← vget t lf
      let l ← vset s.l (i - r - 1) tl
      pure { s with l := l, u := u }
    else pure s
  let ti ← vget t i
  let tp ← vget t (i - 1)
  let s ←
    if DataT.gt ti tp then do
      let du ← s.du.popBack32
      let du ← popWhile32 DataT.gt t ti du.size.toNat du
      pure { s with du := du }
    else do
      let dl ← s.dl.popBack32
      let dl ← popWhile32 DataT.lt t ti dl.size.toNat dl
      pure { s with dl := dl }
  let du ← s.du.pushBack32 i
  let dl ← s.dl.pushBack32 i
  let s := { s with du := du, dl := dl }
  let uf ← s.du.front32
  ck (2 * r)
  ck (2 * r + 1)
  ck (2 * r + 1 + uf)
  if i = 2 * r + 1 + uf then do
    let du ← s.du.popFront32
    pure { s with du := du }
  else do
    let lf ← s.dl.front32
    ck (2 * r + 1 + lf)
    if i = 2 * r + 1 + lf then do
      let dl ← s.dl.popFront32
      pure { s with dl := dl }
    else pure s

/-- Body of the second loop, src/lib/trillionDTW.cpp:54-62 -/
def lemireBody2_32 (t : List α) (r : Int) (i : Int) (s : LemireState α) : Res (LemireState α) := do
  ck (i - r)
  ck (i - r - 1)
  let uf ← s.du.front32
  let tu ← vget t uf
  let u ← vset s.u (i - r - 1) tu
  let lf ← s.dl.front32
  let tl ← vget t lf
  let l ← vset s.l (i - r - 1) tl
  let s := { s with l := l, u := u }
  ck (2 * r)
  ck (2 * r + 1)
  ck (i - uf)
  let s ←
    if i - uf ≥ 2 * r + 1 then do
      let du ← s.du.popFront32
      pure { s with du := du }
    else pure s
  ck (i - lf)
  if i - lf ≥ 2 * r + 1 then do
    let dl ← s.dl.popFront32
    pure { s with dl := dl }
  else pure s

/-- `lower_upper_lemire`, src/lib/trillionDTW.cpp:19-64 -/
def lowerUpperLemire32 (t : List α) (n r : Int) (l0 u0 : List α) : Res (List α × List α) := do
  ck (2 * r)
  ck (2 * r + 2)
  let du ← (Deque.new (2 * r + 2)).pushBack32 0
  let dl ← (Deque.new (2 * r + 2)).pushBack32 0
  let s ← forInt 1 n { du := du, dl := dl, l := l0, u := u0 } (lemireBody1_32 t r)
  ck (n + r)
  ck (n + r + 1)
  let s ← forInt n (n + r + 1) s (lemireBody2_32 t r)
  return (s.l, s.u)

/-- `generateKeoghLU`, src/TimeSeries.cpp:102-119 -/
def generateKeoghLU32 (junk : α) (vals : List α) (warpingBand : Int) : Res (List α × List α) := do
  ck (len vals - 1)
  let warpingBand := min warpingBand (len vals - 1)
  let fresh := List.replicate vals.length junk
  lowerUpperLemire32 vals (len vals) warpingBand fresh fresh

/-- `getKeoghLower` / `getKeoghUpper`, src/TimeSeries.cpp:84-100 -/
def getKeogh32 (junk : α) (s : Series α) (warpingBand : Int) :
    Res ((List α × List α) × Series α) :=
  match s.cache with
  | some c =>
    if c.band = warpingBand then .ok ((c.lower, c.upper), s)
    else do
      let (l, u) ← generateKeoghLU32 junk s.vals warpingBand
      return ((l, u), { s with cache := some { band := warpingBand, lower := l, upper := u } })
  | none => do
    let (l, u) ← generateKeoghLU32 junk s.vals warpingBand
    return ((l, u), { s with cache := some { band := warpingBand, lower := l, upper := u } })

/-- `keoghLowerBound`, src/distance/Distance.cpp:196-217 -/
def keoghLowerBound32 (junk ratio : α) (a b : Series α) (dropout : α) : Res (α × Series α) := do
  let n := Min.min a.length b.length
  let warpingBand ← calculateWarpingBandSize32 ratio (Max.max a.length b.length)
  let ((aLower, _), a) ← getKeogh32 junk a warpingBand
  let ((_, aUpper), a) ← getKeogh32 junk a warpingBand
  let idropout := mul (mul dropout (ofInt 2)) (ofInt (Max.max a.length b.length))
  let idropout := mul idropout idropout
  let lb ← keoghSum b.vals aLower aUpper n idropout
  let x ← eucNormDtw32 lb a.length b.length
  return (x, a)

/-- `crossKeoghLowerBound`, src/distance/Distance.cpp:219-228 -/
def crossKeoghLowerBound32 (junk ratio : α) (a b : Series α) (dropout : α) :
    Res (α × Series α × Series α) := do
  let (lb, a) ← keoghLowerBound32 junk ratio a b dropout
  if gt lb dropout then return (inf, a, b)
  else
    let (lb2, b) ← keoghLowerBound32 junk ratio b a dropout
    return (DataT.max lb lb2, a, b)

/-- `cascadeDistance`, src/distance/Distance.cpp:230-243 -/
def cascadeDistance32 (junk ratio : α) (a b : Series α) (dropout : α) :
    Res (α × Series α × Series α) := do
  let (lb, a, b) ← crossKeoghLowerBound32 junk ratio a b dropout
  if gt lb dropout then return (inf, a, b)
  else
    let d ← warpedDistance32 ratio a.vals b.vals dropout
    return (d, a, b)

/-- The function a distance name stands for, src/distance/Distance.cpp:22-27; `pairwiseDistance` (lines
245-268) does no `int` arithmetic. -/
def DistName.fn32 (ratio : α) : DistName → Dist α
  | .euclidean => DistName.fn ratio .euclidean
  | .euclideanDtw => fun a b d => do
    let v ← warpedDistance32 ratio a.vals b.vals d
    return (v, a, b)

/-! ## Datasets -/

/-- `getTimeSeries`, src/TimeSeriesSet.cpp:192-207: `data + index * itemLength`; the length of the new
series is `end - start` (src/TimeSeries.hpp:50). -/
def Dataset.getTimeSeries32 {α : Type} (ds : Dataset α) (index start stop : Int) : Res View := do
  let v ← ds.getTimeSeries index start stop
  ck (index * ds.itemLength)
  ck (v.stop - v.start)
  return v

/-- The token loop for one row, src/TimeSeriesSet.cpp:123-147 -/
def loadTokens32 (stod : Text → Stod α) (row length startCol : Int) :
    Int → List Text → List α → Res (List α)
  | _, [], data => .ok data
  | col, tok :: toks, data =>
    if col ≥ startCol then
      match stod tok with
      | .val x => do
        ck (length - startCol)
        ck (row * (length - startCol))
        ck (col - startCol)
        ck (row * (length - startCol) + (col - startCol))
        let data ← vset data (row * (length - startCol) + (col - startCol)) x
        loadTokens32 stod row length startCol (col + 1) toks data
      | .invalid => .throw "Dataset file contains unparsable text"
      | .range => .throw "Values are out of range"
    else loadTokens32 stod row length startCol (col + 1) toks data

/-- The row loop, src/TimeSeriesSet.cpp:98-152 -/
def loadRows32 (stod : Text → Stod α) (seps : Text) (maxNumRow startCol : Int) :
    Int → List Text → Int → Option (List α) → Res (Int × Option (List α))
  | _, [], length, data => .ok (length, data)
  | row, line :: lines, length, data => do
    let toks := tokenize seps line
    ck (len toks)
    let (length, data) ←
      if row = 0 then do
        ck (maxNumRow * len toks)
        pure (len toks, some (List.replicate (maxNumRow * len toks).toNat DataT.zero))
      else if length ≠ len toks then
        .throw "File contains time series with inconsistent lengths"
      else pure (length, data)
    match data with
    | none => .ub "null dereference"
    | some d => do
      let d ← loadTokens32 stod row length startCol 0 toks d
      loadRows32 stod seps maxNumRow startCol (row + 1) lines length (some d)

/-- `loadData`, src/TimeSeriesSet.cpp:74-165; the number of lines is counted in an `int`
(lines 86-89). -/
def Dataset.loadData32 (stod : Text → Stod α) (file : Option Text) (filePath : String)
    (maxNumRow startCol : Int) (seps : Text) (ds : Dataset α) : Eff (Dataset α) Unit :=
  let ds := ds.clear
  match file with
  | none => (.throw (.onex <| "Cannot open " ++ filePath), ds)
  | some text =>
    let lines := getLines text
    let run := do
      ck (len lines)
      let maxNumRow := rowLimit maxNumRow (len lines)
      let (length, data) ←
        loadRows32 stod seps maxNumRow startCol 0 (lines.take maxNumRow.toNat) (-1) none
      ck (length - startCol)
      return (length, data)
    match run with
    | .throw msg => (.throw msg, ds.clear)
    | .ub w => (.ub w, ds)
    | .ok (length, data) =>
      (.ok (), { ds with data := data,
                         itemCount := len (lines.take (rowLimit maxNumRow (len lines)).toNat),
                         itemLength := length - startCol, filePath := filePath })

/-- `saveData`, src/TimeSeriesSet.cpp:167-182 -/
def Dataset.saveText32 (shw : α → Text) (ds : Dataset α) (separator : Char) : Res Text :=
  forInt 0 ds.itemCount [] fun i out => do
    let out ← forInt 0 ds.itemLength out fun j out => do
      let b ← ds.buf
      ck (i * ds.itemLength)
      ck (i * ds.itemLength + j)
      let v ← vget b (i * ds.itemLength + j)
      return out ++ shw v ++ [separator]
    return out ++ ['\n']

/-- The min/max scan of one row, src/TimeSeriesSet.cpp:227-260; the index
`ts * itemLength + i` has an unsigned `i`, so its sum is computed modulo 2^32. -/
def scanRow32 (b : List α) (length itemLength ts : Int) (mm : α × α) : Res (α × α) := do
  let i : Int := if length.tmod 2 ≠ 0 then 1 else 0
  ck (ts * itemLength)
  ck (itemLength - 1)
  let mm ←
    if i ≠ 0 then do
      let v ← vget b (ts * itemLength)
      let mn := if lt v mm.1 then v else mm.1
      let mx := if gt v mm.2 then v else mm.2
      pure (mn, mx)
    else pure mm
  forInt2 i (toUnsigned (itemLength - 1)) mm fun i mm => do
    let x ← vget b (toUnsigned (ts * itemLength + i))
    let y ← vget b (toUnsigned (ts * itemLength + (i + 1)))
    let (x, y) := if gt x y then (y, x) else (x, y)
    let mx := if gt y mm.2 then y else mm.2
    let mn := if lt x mm.1 then x else mm.1
    return (mn, mx)

/-- The double loops at src/TimeSeriesSet.cpp:271-277 and 283-289; indices as in `scanRow32`. -/
def mapRows32 (g : α → α) (itemCount itemLength : Int) (b : List α) : Res (List α) :=
  forInt 0 itemCount b fun ts b =>
    forInt 0 (toUnsigned itemLength) b fun i b => do
      ck (ts * itemLength)
      let v ← vget b (toUnsigned (ts * itemLength + i))
      vset b (toUnsigned (ts * itemLength + i)) (g v)

/-- `normalize`, src/TimeSeriesSet.cpp:209-293 -/
def Dataset.normalize32 (ds : Dataset α) : Eff (Dataset α) (α × α) :=
  let length := ds.itemLength * ds.itemCount
  match ck length with
  | .ub w => (.ub w, ds)
  | .throw e => (.throw e, ds)
  | .ok () =>
  if length = 0 then (.throw "No data to normalize", ds)
  else
    let run : Res (Dataset α × (α × α)) := do
      let b ← ds.buf
      let (mn, mx) ← forInt 0 ds.itemCount (inf, ninf) fun ts mm => scanRow32 b length ds.itemLength ts mm
      let diff := sub mx mn
      let b ←
        if eq diff zero then
          if !(eq mx zero) then mapRows32 (fun _ => zero) ds.itemCount ds.itemLength b
          else pure b
        else mapRows32 (fun v => div (sub v mn) diff) ds.itemCount ds.itemLength b
      return ({ ds with data := some b, normalized := true }, (mn, mx))
    match run with
    | .ok (ds', mm) => (.ok mm, ds')
    | .throw m => (.throw m, ds)
    | .ub w => (.ub w, ds)

/-- `doPAA`, src/TimeSeriesSet.cpp:37-52 -/
def doPAA32 (src : List α) (srcOff : Int) (dest : List α) (destOff : Int) (srcLength n : Int) :
    Res (List α) := do
  let s ← forInt 0 srcLength ({ dest := dest, sum := zero, count := 0 } : PaaState α) fun i s => do
    ck (s.count + 1)
    ck (srcLength - 1)
    let count := s.count + 1
    let v ← vget src (srcOff + i)
    let sum := add s.sum v
    if count = n ∨ i = srcLength - 1 then do
      let dest ← vset s.dest (destOff + i.tdiv n) (div sum (ofInt count))
      return { dest := dest, sum := zero, count := 0 }
    else return { dest := s.dest, sum := sum, count := count }
  return s.dest

/-- `PAA`, src/TimeSeriesSet.cpp:295-310, with `calcPAALength`, lines 32-35 -/
def Dataset.PAA32 (junk : α) (n : Int) (ds : Dataset α) : Eff (Dataset α) Unit :=
  if n ≤ 0 then (.throw "Block size must be positive", ds)
  else
    let newItemLength := calcPAALength ds.itemLength n
    let checks : Res Unit := do
      ck (ds.itemLength - 1)
      ck newItemLength
      ck (ds.itemCount * newItemLength)
    match checks with
    | .ub w => (.ub w, ds)
    | .throw e => (.throw e, ds)
    | .ok () =>
    if ds.itemCount * newItemLength < 0 then (.throw .badAlloc, ds) else
    let fresh := List.replicate (ds.itemCount * newItemLength).toNat junk
    let run : Res (List α) := forInt 0 ds.itemCount fresh fun ts nb => do
      let b ← ds.buf
      ck (ts * ds.itemLength)
      ck (ts * newItemLength)
      doPAA32 b (ts * ds.itemLength) nb (ts * newItemLength) ds.itemLength n
    match run with
    | .ok nb => (.ok (), { ds with data := some nb, gen := ds.gen + 1, itemLength := newItemLength })
    | .throw m => (.throw m, ds)
    | .ub w => (.ub w, ds)

/-! ## Groups -/

/-- `addMember`, src/Group.cpp:18-24 -/
def Group.addMember32 (g : Group α) (mm : List Membership) (tsIndex tsStart : Int) :
    Res (Group α × List Membership) := do
  ck (tsIndex * g.subCount)
  ck (tsIndex * g.subCount + tsStart)
  ck (g.count + 1)
  g.addMember mm tsIndex tsStart

/-- `setCentroid`, src/Group.cpp:26-29 -/
def Group.setCentroid32 (ds : Dataset α) (g : Group α) (tsIndex tsStart : Int) : Res (Group α) := do
  ck (tsStart + g.memberLength)
  let v ← ds.getTimeSeries32 tsIndex tsStart (tsStart + g.memberLength)
  return { g with centroid := { g.centroid with src := .view v } }

/-- Loop of `Group::getBestMatch`, src/Group.cpp:44-59 -/
def Group.bestMatchLoop32 (ds : Dataset α) (g : Group α) (mm : List Membership) (d : Dist α) :
    Nat → Coord → α → Coord → Series α → Res (α × Coord × Series α)
  | fuel, cur, best, bestM, query =>
    if cur.1 = -1 then .ok (best, bestM, query)
    else
      match fuel with
      | 0 => .ub "diverges"
      | fuel + 1 => do
        ck (cur.2 + g.memberLength)
        let v ← ds.getTimeSeries32 cur.1 cur.2 (cur.2 + g.memberLength)
        let vals ← ds.resolve v
        let (x, query, _) ← d query (Series.mk' vals) best
        let (best, bestM) := if DataT.lt x best then (x, cur) else (best, bestM)
        ck (cur.1 * g.subCount)
        ck (cur.1 * g.subCount + cur.2)
        let e ← vget mm (cur.1 * g.subCount + cur.2)
        bestMatchLoop32 ds g mm d fuel e.prev best bestM query

/-- `Group::getBestMatch`, src/Group.cpp:37-67 -/
def Group.getBestMatch32 (ds : Dataset α) (g : Group α) (mm : List Membership) (query : Series α)
    (d : Dist α) : Res (Cand α) := do
  let (best, bestM, _) ← g.bestMatchLoop32 ds mm d (mm.length + 1) g.last DataT.inf (0, 0) query
  ck (bestM.2 + g.memberLength)
  let v ← ds.getTimeSeries32 bestM.1 bestM.2 (bestM.2 + g.memberLength)
  return { ts := v, dist := best }

/-- Constructor, src/LocalLengthGroupSpace.cpp:24-29 -/
def LocalSpace.new32 (ds : Dataset α) (length : Int) : Res (LocalSpace α) := do
  ck (ds.itemLength - length)
  ck (ds.itemLength - length + 1)
  ck (ds.itemCount * (ds.itemLength - length + 1))
  LocalSpace.new ds length

/-- Placing one sub-series, src/LocalLengthGroupSpace.cpp:73-97.  The scan over the groups
(lines 78-86) counts in an `unsigned int`. -/
def placeOne32 (ds : Dataset α) (d : Dist α) (threshold : α) (idx start : Int) (ls : LocalSpace α) :
    Res (LocalSpace α) := do
  ck (start + ls.length)
  let v ← ds.getTimeSeries32 idx start (start + ls.length)
  let vals ← ds.resolve v
  let s ← nearest ds d ls.groups (Series.mk' vals) DataT.inf
  let groups := s.groups
  ck (len groups)
  let (groups, bestIdx) ←
    if DataT.gt s.best (DataT.div threshold (DataT.ofInt 2)) || len groups == 0 then do
      let g : Group α := Group.new (len groups) ls.length ls.subCount
      let g ← g.setCentroid32 ds idx start
      pure (groups ++ [g], some (len groups))
    else pure (groups, s.bestIdx)
  match bestIdx with
  | none => .ub "uninitialised index"
  | some k => do
    let g ← vget groups k
    let (g, mm) ← g.addMember32 ls.memberMap idx start
    let groups ← vset groups k g
    return { ls with groups := groups, memberMap := mm }

/-- The progress report, src/LocalLengthGroupSpace.cpp:66-71: when the counter is a multiple of
`totalTimeSeries / LOG_FREQ`, `counter*100/totalTimeSeries` is computed. -/
def logProgress32 (doLog : Bool) (total counter : Int) : Res Unit :=
  if doLog then
    if total.tdiv 5 = 0 then .ub "modulo by zero"
    else if counter.tmod (total.tdiv 5) = 0 then ck (counter * 100)
    else .ok ()
  else .ok ()

/-- `generateGroups`, src/LocalLengthGroupSpace.cpp:48-102.  State: the space and `counter`. -/
def LocalSpace.generateGroups32 (ds : Dataset α) (d : Dist α) (threshold : α) (doLog : Bool)
    (ls : LocalSpace α) : Res (LocalSpace α) := do
  let total := ls.subCount * ds.itemCount
  ck total
  let s ← forInt 0 ls.subCount (ls, 0) fun start s =>
    forInt 0 ds.itemCount s fun idx s => do
      ck (s.2 + 1)
      logProgress32 doLog total (s.2 + 1)
      let ls ← placeOne32 ds d threshold idx start s.1
      return (ls, s.2 + 1)
  return s.1

/-- `group`, src/GlobalGroupSpace.cpp:43-58: `numberOfGroups` is an `int`. -/
def GlobalSpace.group32 (ratio : α) (ds : Dataset α) (distanceName : String) (threshold : α)
    (doLog : Int → Bool) (gs : GlobalSpace α) : Eff (GlobalSpace α) Int :=
  let gs : GlobalSpace α := { gs with locals := [], distanceName := distanceName }
  match getDistance distanceName with
  | .throw e => (.throw e, gs)
  | .ub w => (.ub w, gs)
  | .ok dn =>
    match ck (ds.itemLength + 1) with
    | .ub w => (.ub w, gs)
    | .throw e => (.throw e, gs)
    | .ok () =>
    if ds.itemLength + 1 < 0 then (.throw .lengthError, gs)
    else
      let locals0 : List (Option (LocalSpace α)) := List.replicate (ds.itemLength + 1).toNat none
      let run : Res (List (Option (LocalSpace α)) × Int) :=
        forInt 2 (ds.itemLength + 1) (locals0, 0) fun i s => do
          let ls ← LocalSpace.new32 ds i
          let ls ← ls.generateGroups32 ds (dn.fn32 ratio) threshold (doLog i)
          let locals ← vset s.1 i (some ls)
          ck (s.2 + ls.getNumberOfGroups)
          return (locals, s.2 + ls.getNumberOfGroups)
      match run with
      | .ok (locals, n) => (.ok n, { gs with locals := locals })
      | .throw e => (.throw e, gs)
      | .ub w => (.ub w, gs)

/-- One iteration of the loop at src/GlobalGroupSpace.cpp:124-151 -/
def traverseStep32 (ratio : α) (queryLength totalLength : Int) (s : OrderState) :
    Res OrderState := do
  let s := if s.low < 2 then { s with lowStop := true } else s
  let s := if s.high > totalLength then { s with highStop := true } else s
  let s ←
    if !s.lowStop then do
      let r ← calculateWarpingBandSize32 ratio queryLength
      ck (s.low + r)
      ck (s.low - 1)
      if s.low + r ≥ queryLength then
        pure { s with order := s.order ++ [s.low], low := s.low - 1 }
      else pure { s with lowStop := true }
    else pure s
  if !s.highStop then do
    let r ← calculateWarpingBandSize32 ratio s.high
    ck (queryLength + r)
    ck (s.high + 1)
    if queryLength + r ≥ s.high then
      pure { s with order := s.order ++ [s.high], high := s.high + 1 }
    else pure { s with highStop := true }
  else pure s

/-- The loop at src/GlobalGroupSpace.cpp:124-151 -/
def traverseLoop32 (ratio : α) (queryLength totalLength : Int) : Nat → OrderState → Res OrderState
  | fuel, s =>
    if s.lowStop && s.highStop then .ok s
    else
      match fuel with
      | 0 => .ub "diverges"
      | fuel + 1 => do
        let s ← traverseStep32 ratio queryLength totalLength s
        traverseLoop32 ratio queryLength totalLength fuel s

/-- `generateTraverseOrder`, src/GlobalGroupSpace.cpp:116-153 -/
def generateTraverseOrder32 (ratio : α) (queryLength totalLength : Int) : Res (List Int) := do
  ck (queryLength - 1)
  ck (queryLength + 1)
  let s ← traverseLoop32 ratio queryLength totalLength
    (queryLength.toNat + totalLength.toNat + 3)
    { order := [queryLength], low := queryLength - 1, high := queryLength + 1,
      lowStop := false, highStop := false }
  return s.order

/-- `GlobalGroupSpace::getBestMatch`, src/GlobalGroupSpace.cpp:60-80.  The loop over lengths itself
(lines 69-78) does no `int` arithmetic. -/
def GlobalSpace.getBestMatch32 (junk ratio : α) (ds : Dataset α) (gs : GlobalSpace α)
    (query : Series α) : Res (Cand α × GlobalSpace α) := do
  if query.length ≤ 1 then .throw "Length of query must be larger than 1"
  else
    let d : Dist α := cascadeDistance32 junk ratio
    ck (len gs.locals - 1)
    let order ← generateTraverseOrder32 ratio query.length (len gs.locals - 1)
    let s ← searchLoop ds d order
      { locals := gs.locals, query := query, best := DataT.inf, bestGroup := none }
    match s.bestGroup with
    | none => .ub "null dereference"
    | some (l, k) => do
      match ← vget s.locals l with
      | none => .ub "null dereference"
      | some ls => do
        let g ← vget ls.groups k
        let cand ← g.getBestMatch32 ds ls.memberMap s.query d
        return (cand, { gs with locals := s.locals })

namespace GSet

/-- `groupAllLengths`, src/GroupableTimeSeriesSet.cpp:21-35 -/
def groupAllLengths32 (env : Env α) (distanceName : String) (threshold : α) (s : GSet α) :
    Eff (GSet α) Int :=
  if !s.ds.isLoaded then (.throw "No data to group", s)
  else
    let s := s.reset
    let (r, gs) := GlobalSpace.fresh.group32 env.ratio s.ds distanceName threshold env.doLog
    let s := { s with groups := some gs }
    match r with
    | .ok n => (.ok n, { s with threshold := some threshold })
    | r => (r, s)

/-- `getBestMatch`, src/GroupableTimeSeriesSet.cpp:104-111 -/
def getBestMatch32 (env : Env α) (query : Series α) (s : GSet α) : Eff (GSet α) (Cand α) :=
  match s.groups with
  | none => (.throw "Dataset is not grouped", s)
  | some gs =>
    match gs.getBestMatch32 env.junk env.ratio s.ds query with
    | .ok (c, gs) => (.ok c, { s with groups := some gs })
    | .throw e => (.throw e, s)
    | .ub w => (.ub w, s)

end GSet

end Onex
