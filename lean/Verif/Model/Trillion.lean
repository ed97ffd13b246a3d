import Verif.Model.DataT
import Verif.Model.Basic

/-!
# `dtw` of the UCR suite (src/lib/trillionDTW.cpp:172-242)
-/

namespace Onex

variable {α : Type} [DataT α]
open DataT

/-- `INF_TRILLION` (src/lib/trillionDTW.h:14) is `1e20`. -/
def infTrillion : α := ofInt (10 ^ 20)

/-- The macro `min(x,y)`, src/lib/trillionDTW.cpp:10 -/
def minM (x y : α) : α := if lt x y then x else y

/-- The macro `dist(x,y)`, src/lib/trillionDTW.cpp:12 -/
def distM (x y : α) : α := mul (sub x y) (sub x y)

/-- State of the inner loop: `cost`, `min_cost`, `k`. -/
structure DtwInner (α : Type) where
  cost : List α
  minCost : α
  k : Int

/-- Body of the inner loop, src/lib/trillionDTW.cpp:199-221 -/
def dtwCell (A B : List α) (r i : Int) (prev : List α) (j : Int) (s : DtwInner α) :
    Res (DtwInner α) := do
  if i = 0 ∧ j = 0 then
    let a ← vget A 0
    let b ← vget B 0
    let cost ← vset s.cost s.k (distM a b)
    let c ← vget cost s.k
    return { cost := cost, minCost := c, k := s.k + 1 }
  else
    let y ← if j - 1 < 0 ∨ s.k - 1 < 0 then pure infTrillion else vget s.cost (s.k - 1)
    let x ← if i - 1 < 0 ∨ s.k + 1 > 2 * r then pure infTrillion else vget prev (s.k + 1)
    let z ← if i - 1 < 0 ∨ j - 1 < 0 then pure infTrillion else vget prev s.k
    let a ← vget A i
    let b ← vget B j
    let v := add (minM (minM x y) z) (distM a b)
    let cost ← vset s.cost s.k v
    return { cost := cost, minCost := if lt v s.minCost then v else s.minCost, k := s.k + 1 }

/-- State of the outer loop: the two arrays, `k`, and the value of an early `return`. -/
structure DtwOuter (α : Type) where
  cost : List α
  prev : List α
  k : Int
  ret : Option α

/-- Body of the outer loop, src/lib/trillionDTW.cpp:192-234 -/
def dtwRow (A B cb : List α) (m r : Int) (bsf : α) (i : Int) (s : DtwOuter α) :
    Res (Step (DtwOuter α)) := do
  let q ← forInt (Max.max 0 (i - r)) (Min.min (m - 1) (i + r) + 1)
    { cost := s.cost, minCost := infTrillion, k := Max.max 0 (r - i) } (dtwCell A B r i s.prev)
  let early ←
    if i + r < m - 1 then do
      let c ← vget cb (i + r + 1)
      let v := add q.minCost c
      pure (if ge v bsf then some v else none)
    else pure none
  match early with
  | some v => return .brk { s with cost := q.cost, k := q.k, ret := some v }
  | none => return .next { cost := s.prev, prev := q.cost, k := q.k, ret := none }

/-- `dtw`, src/lib/trillionDTW.cpp:176-242 -/
def dtw (A B cb : List α) (m r : Int) (bsf : α) : Res α := do
  let fresh := List.replicate (2 * r + 1).toNat infTrillion
  let s ← forBrk 0 m ({ cost := fresh, prev := fresh, k := 0, ret := none } : DtwOuter α)
    (dtwRow A B cb m r bsf)
  match s.ret with
  | some v => return v
  | none => vget s.prev (s.k - 1)

end Onex
