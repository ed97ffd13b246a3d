import Verif.Model.Series

/-!
# Distances (src/distance/Distance.cpp)

The global `warpingBandRatio` (src/distance/Distance.cpp:126) is an explicit parameter
`ratio`.  `pow(x, 2)` is modelled as one rounded multiplication `x * x`.
-/

namespace Onex

variable {α : Type} [DataT α]

open DataT

/-- `_euc`, src/distance/Distance.cpp:31-34 -/
def euc (x y : α) : α := mul (sub x y) (sub x y)

/-- `_euc_norm`, src/distance/Distance.cpp:36-39 -/
def eucNorm (total : α) (l1 l2 : Int) : α := sqrt (div total (ofInt (Max.max l1 l2)))

/-- `_euc_inorm`, src/distance/Distance.cpp:41-44 -/
def eucInorm (dropout : α) (l1 l2 : Int) : α :=
  mul (mul dropout dropout) (ofInt (Max.max l1 l2))

/-- `_euc_norm_dtw`, src/distance/Distance.cpp:46-49 -/
def eucNormDtw (total : α) (l1 l2 : Int) : α :=
  div (sqrt total) (ofInt (2 * Max.max l1 l2))

/-- `_euc_inorm_dtw`, src/distance/Distance.cpp:51-54 -/
def eucInormDtw (dropout : α) (l1 l2 : Int) : α :=
  let x := mul (mul dropout (ofInt 2)) (ofInt (Max.max l1 l2))
  mul x x

/-- `calculateWarpingBandSize`, src/distance/Distance.cpp:132-136 -/
def calculateWarpingBandSize (ratio : α) (length : Int) : Res Int :=
  match floorInt (mul (ofInt length) ratio) with
  | some bandSize => .ok (Min.min bandSize (length - 1))
  | none => .ub "conversion to int out of range"

/-- One cell of the main loop of `warpedDistance`, src/distance/Distance.cpp:94-114.
State: cost matrix and `bestSoFar`. -/
def warpedCell (a b : List α) (r i : Int) (j : Int) (s : Mat α × α) : Res (Mat α × α) := do
  let (cost, bestSoFar) := s
  if j = 0 then
    let c ← mget cost i j
    return (cost, DataT.min bestSoFar c)
  else
    let ij1 ← if i - r ≤ j - 1 ∧ j - 1 ≤ i + r then mget cost i (j - 1) else pure inf
    let i1j1 ← mget cost (i - 1) (j - 1)
    let i1j ← if j - r ≤ i - 1 ∧ i - 1 ≤ j + r then mget cost (i - 1) j else pure inf
    let minPrev ← mget cost (i - 1) j
    let minPrev ←
      if lt i1j1 ij1 && lt i1j1 i1j then mget cost (i - 1) (j - 1)
      else if lt ij1 i1j then mget cost i (j - 1)
      else pure minPrev
    let x ← tsGet a i
    let y ← tsGet b j
    let v := add minPrev (euc x y)
    let cost ← mset cost i j v
    return (cost, DataT.min bestSoFar v)

/-- One row of the main loop, src/distance/Distance.cpp:93-120.  State: cost matrix and `dropped`. -/
def warpedRow (a b : List α) (r : Int) (idropout : α) (i : Int) (s : Mat α × Bool) :
    Res (Step (Mat α × Bool)) := do
  let (cost, bestSoFar) ←
    forInt (Max.max (i - r) 0) (Min.min (i + r) (len b - 1) + 1) (s.1, inf) (warpedCell a b r i)
  if gt bestSoFar idropout then return .brk (cost, true)
  else return .next (cost, s.2)

/-- `warpedDistance` after the band size is known, src/distance/Distance.cpp:61-123. -/
def warpedDistanceBand (r : Int) (a b : List α) (dropout : α) : Res α := do
  let m := len a
  let n := len b
  let idropout := eucInormDtw dropout m n
  if m = 1 ∧ n = 1 then
    let x ← tsGet a 0
    let y ← tsGet b 0
    return eucNormDtw (euc x y) m n
  else
    let cost : Mat α := List.replicate m.toNat (List.replicate n.toNat zero)
    let cost ← mset cost (m - 1) (n - 1) inf
    let x ← tsGet a 0
    let y ← tsGet b 0
    let cost ← mset cost 0 0 (euc x y)
    let cost ← forInt 1 (Min.min (2 * r + 1) m) cost fun i cost => do
      let p ← mget cost (i - 1) 0
      let x ← tsGet a i
      let y ← tsGet b 0
      mset cost i 0 (add p (euc x y))
    let cost ← forInt 1 (Min.min (2 * r + 1) n) cost fun j cost => do
      let p ← mget cost 0 (j - 1)
      let x ← tsGet a 0
      let y ← tsGet b j
      mset cost 0 j (add p (euc x y))
    let (cost, dropped) ← forBrk 1 m (cost, false) (warpedRow a b r idropout)
    let result ← if dropped then pure inf else mget cost (m - 1) (n - 1)
    return eucNormDtw result m n

/-- `warpedDistance`, src/distance/Distance.cpp:56-124 -/
def warpedDistance (ratio : α) (a b : List α) (dropout : α) : Res α := do
  let r ← calculateWarpingBandSize ratio (Max.max (len a) (len b))
  warpedDistanceBand r a b dropout

/-- `min(min(x, y), z)` as written in `kimLowerBound` -/
def min3 (x y z : α) : α := DataT.min (DataT.min x y) z

/-- `kimLowerBound`, src/distance/Distance.cpp:138-194 -/
def kimLowerBound (a b : List α) (dropout : α) : Res α := do
  let al := len a
  let bl := len b
  let l := Min.min al bl
  let e (i j : Int) : Res α := do
    let x ← tsGet a i
    let y ← tsGet b j
    return euc x y
  if l = 0 then return zero
  else if l = 1 then e 0 0
  else
    let lb := add zero (← e 0 0)
    let lb := add lb (← e (al - 1) (bl - 1))
    if gt lb dropout then return inf
    else
    let lb := add lb (min3 (← e 0 1) (← e 1 1) (← e 1 0))
    if gt lb dropout then return inf
    else
    let lb := add lb (min3 (← e (al - 1) (bl - 2)) (← e (al - 2) (bl - 2)) (← e (al - 2) (bl - 1)))
    if ge lb dropout then return inf
    else if l = 4 then return lb
    else
    let lb := add lb (DataT.min
      (DataT.min (DataT.min (← e 0 2) (← e 1 2)) (DataT.min (← e 2 2) (← e 2 1))) (← e 2 0))
    if gt lb dropout then return inf
    else
    let lb := add lb (DataT.min
      (DataT.min (DataT.min (← e (al - 1) (bl - 3)) (← e (al - 2) (bl - 3)))
        (DataT.min (← e (al - 3) (bl - 3)) (← e (al - 3) (bl - 2)))) (← e (al - 3) (bl - 1)))
    return lb

/-- Loop of `keoghLowerBound`, src/distance/Distance.cpp:205-215 (`i < len && lb < idropout` is the
loop condition, so the test happens before each iteration). -/
def keoghSum (b lower upper : List α) (n : Int) (idropout : α) : Res α :=
  forBrk 0 n zero fun i lb => do
    if lt lb idropout then
      let x ← tsGet b i
      let u ← vget upper i
      if gt x u then return .next (add lb (euc x u))
      else
        let l ← vget lower i
        if lt x l then return .next (add lb (euc x l))
        else return .next lb
    else return .brk lb

/-- `keoghLowerBound(a, b, dropout)`, src/distance/Distance.cpp:196-217.  Also returns `a` with
its envelope cache. -/
def keoghLowerBound (junk ratio : α) (a b : Series α) (dropout : α) : Res (α × Series α) := do
  let n := Min.min a.length b.length
  let warpingBand ← calculateWarpingBandSize ratio (Max.max a.length b.length)
  let ((aLower, _), a) ← getKeogh junk a warpingBand
  let ((_, aUpper), a) ← getKeogh junk a warpingBand
  let idropout := mul (mul dropout (ofInt 2)) (ofInt (Max.max a.length b.length))
  let idropout := mul idropout idropout
  let lb ← keoghSum b.vals aLower aUpper n idropout
  return (eucNormDtw lb a.length b.length, a)

/-- `crossKeoghLowerBound`, src/distance/Distance.cpp:219-228 -/
def crossKeoghLowerBound (junk ratio : α) (a b : Series α) (dropout : α) :
    Res (α × Series α × Series α) := do
  let (lb, a) ← keoghLowerBound junk ratio a b dropout
  if gt lb dropout then return (inf, a, b)
  else
    let (lb2, b) ← keoghLowerBound junk ratio b a dropout
    return (DataT.max lb lb2, a, b)

/-- `cascadeDistance`, src/distance/Distance.cpp:230-243 -/
def cascadeDistance (junk ratio : α) (a b : Series α) (dropout : α) :
    Res (α × Series α × Series α) := do
  let (lb, a, b) ← crossKeoghLowerBound junk ratio a b dropout
  if gt lb dropout then return (inf, a, b)
  else
    let d ← warpedDistance ratio a.vals b.vals dropout
    return (d, a, b)

/-- `pairwiseDistance`, src/distance/Distance.cpp:245-268 -/
def pairwiseDistance (x1 x2 : List α) (dropout : α) : Res α := do
  if len x1 ≠ len x2 then
    .throw "Two time series must have the same length for pairwise distance"
  else
    let dropout := eucInorm dropout (len x1) (len x2)
    let (total, dropped) ← forBrk 0 (len x1) (zero, false) fun i s => do
      let x ← tsGet x1 i
      let y ← tsGet x2 i
      let total := add s.1 (euc x y)
      if gt total dropout then return .brk (total, true)
      else return .next (total, s.2)
    return if dropped then inf else eucNorm total (len x1) (len x2)

/-- The two distances reachable through `getDistance` -/
inductive DistName where
  | euclidean
  | euclideanDtw
deriving DecidableEq, Repr

/-- `getDistance`, src/distance/Distance.cpp:20-29 -/
def getDistance (name : String) : Res DistName :=
  if name = "euclidean" then .ok .euclidean
  else if name = "euclidean_dtw" then .ok .euclideanDtw
  else .throw (.onex <| "Cannot find distance with name: " ++ name)

/-- A value of the function pointer type `dist_t` (src/distance/Distance.hpp:19): takes two series
and a dropout; may refresh the envelope caches of both. -/
abbrev Dist (α : Type) := Series α → Series α → α → Res (α × Series α × Series α)

/-- The function a distance name stands for (src/distance/Distance.cpp:22-27). -/
def DistName.fn (ratio : α) : DistName → Dist α
  | .euclidean => fun a b d => do
    let v ← pairwiseDistance a.vals b.vals d
    return (v, a, b)
  | .euclideanDtw => fun a b d => do
    let v ← warpedDistance ratio a.vals b.vals d
    return (v, a, b)

end Onex
