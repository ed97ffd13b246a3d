import Verif.Model.Basic

/-!
# `class deque` — circular array of `int` (src/lib/deque.h, src/lib/deque.cpp)
-/

namespace Onex

/-- src/lib/deque.h:5-10.  `data` is the malloc'ed array; a cell is `none` until first
written (reading it then is undefined). -/
structure Deque where
  data : List (Option Int)
  size : Int
  capacity : Int
  f : Int
  r : Int

namespace Deque

/-- Constructor, src/lib/deque.cpp:5-12.  A non-positive capacity gives an array without usable
cells. -/
def new (capacity : Int) : Deque where
  data := List.replicate capacity.toNat none
  size := 0
  capacity := capacity
  f := 0
  r := capacity - 1

/-- src/lib/deque.cpp:21-28 -/
def pushBack (d : Deque) (v : Int) : Res Deque := do
  let data ← vset d.data d.r (some v)
  let r := d.r - 1
  let r := if r < 0 then d.capacity - 1 else r
  return { d with data := data, r := r, size := d.size + 1 }

/-- src/lib/deque.cpp:31-37 -/
def popFront (d : Deque) : Res Deque :=
  let f := d.f - 1
  let f := if f < 0 then d.capacity - 1 else f
  .ok { d with f := f, size := d.size - 1 }

/-- src/lib/deque.cpp:40-44; `%` by a zero capacity is undefined. -/
def popBack (d : Deque) : Res Deque :=
  if d.capacity = 0 then .ub "modulo by zero"
  else .ok { d with r := (d.r + 1).tmod d.capacity, size := d.size - 1 }

/-- src/lib/deque.cpp:47-54 -/
def front (d : Deque) : Res Int := do
  let aux := d.f - 1
  let aux := if aux < 0 then d.capacity - 1 else aux
  match ← vget d.data aux with
  | some v => .ok v
  | none => .ub "uninitialised read"

/-- src/lib/deque.cpp:57-61 -/
def back (d : Deque) : Res Int := do
  if d.capacity = 0 then .ub "modulo by zero"
  else
    let aux := (d.r + 1).tmod d.capacity
    match ← vget d.data aux with
    | some v => .ok v
    | none => .ub "uninitialised read"

/-- src/lib/deque.cpp:64-67 -/
def empty (d : Deque) : Bool := d.size == 0

end Deque

end Onex
