import Verif.Model.Dataset

/-!
# `tsPAA`: PAA of a single series
-/

namespace Onex
open DataT

variable {α : Type} [DataT α]

/-- Assignment through `operator[]`, src/TimeSeries.cpp:62-68 -/
def tsSet (vals : List α) (idx : Int) (x : α) : Res (List α) :=
  if idx < 0 ∨ idx ≥ len vals then .throw "Data point index is out of range"
  else vset vals idx x

/-- The body of the loop at src/TimeSeriesSet.cpp:61-70. Source and destination are series, so both accesses are checked. -/
def tsPaaBody (source : List α) (n : Int) (i : Int) (s : PaaState α) : Res (PaaState α) := do
  let count := s.count + 1
  let v ← tsGet source i
  let sum := add s.sum v
  if count = n ∨ i = len source - 1 then do
    let dest ← tsSet s.dest (i.tdiv n) (div sum (ofInt count))
    return { dest := dest, sum := zero, count := 0 }
  else return { dest := s.dest, sum := sum, count := count }

/-- `tsPAA`, src/TimeSeriesSet.cpp:54-72. `calcPAALength` divides by `n`. The constructor at src/TimeSeries.hpp:76-81 makes a series of
zeros; a negative size makes `new[]` throw. Simplification: `int` without bounds. -/
def tsPAA (source : List α) (n : Int) : Res (List α) :=
  if n = 0 then .ub "division by zero"
  else
    let destLength := calcPAALength (len source) n
    if destLength < 0 then .throw .badAlloc
    else do
      let s ← forInt 0 (len source) { dest := List.replicate destLength.toNat zero, sum := zero, count := 0 } (tsPaaBody source n)
      return s.dest

end Onex
