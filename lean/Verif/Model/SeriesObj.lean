import Verif.Model.Series

/-!
# `TimeSeries` objects: ownership, copying, assignment (src/TimeSeries.hpp, src/TimeSeries.cpp)

A small heap of allocations and a store of objects.  `delete` applied to memory from `new[]`
(src/TimeSeries.cpp:53) is formally undefined; the model treats it as releasing the block.
-/

namespace Onex

/-- A heap allocation of `data_t`s. -/
structure Block (α : Type) where
  alive : Bool
  cells : List α

/-- A `TimeSeries` object, src/TimeSeries.hpp:173-185.  `data` is a block number (`none`:
`nullptr`) — every data pointer in the code points to the start of a row, modelled as offset `off` in its block. -/
structure Obj (α : Type) where
  data : Option Nat
  off : Int
  owner : Bool
  index : Int
  start : Int
  stop : Int
  length : Int
  cache : Option (Cache α)

/-- Heap and live objects (`none`: destroyed). -/
structure Store (α : Type) where
  heap : List (Block α)
  objs : List (Option (Obj α))

variable {α : Type} [DataT α]

namespace Store

/-- The object number `i`; using a destroyed or unknown object is undefined. -/
def obj (s : Store α) (i : Nat) : Res (Obj α) :=
  match s.objs[i]? with
  | some (some o) => .ok o
  | _ => .ub "no such object"

/-- A block that may be accessed. -/
def block (s : Store α) (p : Option Nat) : Res (List α) :=
  match p with
  | none => .ub "null dereference"
  | some b =>
    match s.heap[b]? with
    | some blk => if blk.alive then .ok blk.cells else .ub "use after free"
    | none => .ub "wild pointer"

/-- `new data_t[..]` with the given contents. -/
def alloc (s : Store α) (cells : List α) : Store α × Nat :=
  ({ s with heap := s.heap ++ [{ alive := true, cells := cells }] }, s.heap.length)

/-- `delete`/`delete[]` of a data pointer; deleting `nullptr` does nothing. -/
def free (s : Store α) (p : Option Nat) : Res (Store α) :=
  match p with
  | none => .ok s
  | some b =>
    match s.heap[b]? with
    | some blk =>
      if blk.alive then .ok { s with heap := s.heap.set b { blk with alive := false } }
      else .ub "double free"
    | none => .ub "wild pointer"

/-- Write the object record back. -/
def setObj (s : Store α) (i : Nat) (o : Option (Obj α)) : Store α :=
  { s with objs := s.objs.set i o }

/-- `TimeSeries(int length)`, src/TimeSeries.hpp:76-81: owned, zeroed. -/
def newOwned (s : Store α) (length : Int) : Res (Store α × Nat) :=
  if length < 0 then .throw .badAlloc
  else
    let (s, b) := s.alloc (List.replicate length.toNat DataT.zero)
    let o : Obj α := { data := some b, off := 0, owner := true, index := 0, start := 0,
                       stop := length, length := length, cache := none }
    .ok ({ s with objs := s.objs ++ [some o] }, s.objs.length)

/-- `TimeSeries(data, index, start, end)`, src/TimeSeries.hpp:48-51, with `data` pointing `off` into block `b`. -/
def newView (s : Store α) (b : Nat) (off index start stop : Int) : Store α × Nat :=
  let o : Obj α := { data := some b, off := off, owner := false, index := index, start := start,
                     stop := stop, length := stop - start, cache := none }
  ({ s with objs := s.objs ++ [some o] }, s.objs.length)

/-- The values of a memory range, read with `memcpy`. -/
def readRange (s : Store α) (p : Option Nat) (off n : Int) : Res (List α) :=
  if n ≤ 0 then .ok []
  else do
    let c ← s.block p
    if 0 ≤ off ∧ off + n ≤ len c then .ok ((c.drop off.toNat).take n.toNat)
    else .ub "read out of bounds"

/-- The part shared by copy construction and copy assignment: copy the description of `o`, and
its first `length` cells if it is an owner (src/TimeSeries.hpp:88-100,
src/TimeSeries.cpp:20-32).  `cache` is the envelope cache the target has. -/
def copyInto (s : Store α) (o : Obj α) (cache : Option (Cache α)) : Res (Store α × Obj α) :=
  if o.owner then
    if o.length < 0 then .throw .badAlloc
    else do
      let cells ← s.readRange o.data o.off o.length
      let (s, b) := s.alloc cells
      return (s, { o with data := some b, off := 0, cache := cache })
  else return (s, { o with cache := cache })

/-- Copy constructor, src/TimeSeries.hpp:86-101. -/
def copy (s : Store α) (j : Nat) : Res (Store α × Nat) := do
  let o ← s.obj j
  let (s, o') ← s.copyInto o none
  return ({ s with objs := s.objs ++ [some o'] }, s.objs.length)

/-- Copy assignment `i = j`, src/TimeSeries.cpp:15-34: releases the old data first; the target keeps its envelope cache. -/
def copyAssign (s : Store α) (i j : Nat) : Res (Store α) := do
  let t ← s.obj i
  let s ← if t.owner then s.free t.data else pure s
  let o ← s.obj j
  let (s, o') ← s.copyInto o t.cache
  return s.setObj i (some o')

/-- Move assignment `i = std::move(j)`, src/TimeSeries.cpp:36-46: the old data of `i` is leaked, `j` keeps its
description but loses the pointer. -/
def moveAssign (s : Store α) (i j : Nat) : Res (Store α) := do
  let t ← s.obj i
  let o ← s.obj j
  let s := s.setObj i (some { o with cache := t.cache })
  let o ← s.obj j
  return s.setObj j (some { o with data := none })

/-- Destructor, src/TimeSeries.cpp:48-60. -/
def destroy (s : Store α) (i : Nat) : Res (Store α) := do
  let o ← s.obj i
  let s ← if o.owner then s.free o.data else pure s
  return s.setObj i none

/-- `operator[]`, src/TimeSeries.cpp:62-68 -/
def get (s : Store α) (i : Nat) (idx : Int) : Res α := do
  let o ← s.obj i
  if idx < 0 ∨ idx ≥ o.length then .throw "Data point index is out of range"
  else do
    let c ← s.block o.data
    vget c (o.off + o.start + idx)

/-- Writing one cell of a block. -/
def poke (s : Store α) (p : Option Nat) (pos : Int) (v : α) : Res (Store α) :=
  match p with
  | none => .ub "null dereference"
  | some b => do
    let c ← s.block (some b)
    let c ← vset c pos v
    return { s with heap := s.heap.set b { alive := true, cells := c } }

/-- `ts[idx] = v` through the reference returned by `operator[]`. -/
def put (s : Store α) (i : Nat) (idx : Int) (v : α) : Res (Store α) := do
  let o ← s.obj i
  if idx < 0 ∨ idx ≥ o.length then .throw "Data point index is out of range"
  else s.poke o.data (o.off + o.start + idx) v

/-- `operator+=`, src/TimeSeries.cpp:70-82: `i += j`. -/
def addAssign (s : Store α) (i j : Nat) : Res (Store α) := do
  let o ← s.obj i
  let p ← s.obj j
  if p.length ≠ o.length then
    .throw "Two time series must have the same length for addition"
  else do
    let s ← forInt 0 o.length s fun k s => do
      let c ← s.block o.data
      let x ← vget c (o.off + o.start + k)
      let y ← s.get j k
      s.poke o.data (o.off + o.start + k) (DataT.add x y)
    return s.setObj i (some { o with cache := none })

/-- The values an object denotes now. -/
def values (s : Store α) (i : Nat) : Res (List α) := do
  let o ← s.obj i
  s.readRange o.data (o.off + o.start) o.length

/-- `generateKeoghLU` on an object, src/TimeSeries.cpp:102-119, with the bookkeeping of its callers
(src/TimeSeries.cpp:86-89 and 94-97). -/
def keoghFresh (s : Store α) (junk : α) (i : Nat) (o : Obj α) (band : Int) :
    Res ((List α × List α) × Store α) := do
  let vals ← s.values i
  let (l, u) ← generateKeoghLU junk vals band
  return ((l, u), s.setObj i (some { o with cache := some { band := band, lower := l, upper := u } }))

/-- `getKeoghLower`/`getKeoghUpper` on an object, src/TimeSeries.cpp:84-100: a cache for the same
band is returned without looking at the data. -/
def keogh (junk : α) (s : Store α) (i : Nat) (band : Int) : Res ((List α × List α) × Store α) := do
  let o ← s.obj i
  match o.cache with
  | some c => if c.band = band then .ok ((c.lower, c.upper), s) else s.keoghFresh junk i o band
  | none => s.keoghFresh junk i o band

end Store

end Onex
