import Verif.Model.SeriesObj

/-!
# Histories of operations on `TimeSeries` objects

A client program creates, copies, assigns, writes, adds and destroys series. Blocks created by
`newExt` stand for dataset buffers: they are not owned by any series and stay allocated.
-/

namespace Onex

/-- One client operation. Objects are numbered in order of creation. -/
inductive SOp (α : Type) where
  /-- `TimeSeries(int length)`, src/TimeSeries.hpp:76-81 -/
  | newOwned (length : Int)
  /-- a data buffer outside any series (`new data_t[..]` in src/TimeSeriesSet.cpp) -/
  | newExt (cells : List α)
  /-- `TimeSeries(data, index, start, end)`, src/TimeSeries.hpp:48-51 -/
  | newView (b : Nat) (off index start stop : Int)
  /-- copy constructor, src/TimeSeries.hpp:86-101 -/
  | copy (j : Nat)
  /-- copy assignment, src/TimeSeries.cpp:15-34 -/
  | copyAssign (i j : Nat)
  /-- move assignment, src/TimeSeries.cpp:36-46 -/
  | moveAssign (i j : Nat)
  /-- destructor, src/TimeSeries.cpp:48-60 -/
  | destroy (i : Nat)
  /-- write through `operator[]`, src/TimeSeries.cpp:62-68 -/
  | put (i : Nat) (idx : Int) (v : α)
  /-- `operator+=`, src/TimeSeries.cpp:70-82 -/
  | addAssign (i j : Nat)
  /-- `getKeoghLower`/`getKeoghUpper`, src/TimeSeries.cpp:84-119 -/
  | keogh (junk : α) (i : Nat) (band : Int)

/-- Store and the numbers of the blocks made by `newExt`. -/
abbrev SState (α : Type) := Store α × List Nat

variable {α : Type} [DataT α]

/-- One operation. -/
def SOp.step (st : SState α) : SOp α → Res (SState α)
  | .newOwned n => do
    let (s, _) ← st.1.newOwned n
    return (s, st.2)
  | .newExt cells => let (s, b) := st.1.alloc cells; .ok (s, b :: st.2)
  | .newView b off index start stop => .ok ((st.1.newView b off index start stop).1, st.2)
  | .copy j => do
    let (s, _) ← st.1.copy j
    return (s, st.2)
  | .copyAssign i j => do
    let s ← st.1.copyAssign i j
    return (s, st.2)
  | .moveAssign i j => do
    let s ← st.1.moveAssign i j
    return (s, st.2)
  | .destroy i => do
    let s ← st.1.destroy i
    return (s, st.2)
  | .put i idx v => do
    let s ← st.1.put i idx v
    return (s, st.2)
  | .addAssign i j => do
    let s ← st.1.addAssign i j
    return (s, st.2)
  | .keogh junk i band => do
    let (_, s) ← Store.keogh junk st.1 i band
    return (s, st.2)

/-- A history. Exceptions are caught by the client; all of them are thrown before anything is
changed, so the state stays. -/
def SOp.run (st : SState α) : List (SOp α) → Res (SState α)
  | [] => .ok st
  | op :: ops =>
    match op.step st with
    | .ok st' => SOp.run st' ops
    | .throw _ => SOp.run st ops
    | .ub w => .ub w

/-- Nothing allocated, no objects. -/
def SState.init : SState α := ({ heap := [], objs := [] }, [])

end Onex
