import Verif.Model.Deque
import Verif.Model.DataT

/-!
# `lower_upper_lemire` (src/lib/trillionDTW.cpp:19-64)
-/

namespace Onex

variable {α : Type} [DataT α]

/-- `while (!du.empty() && t[i] > t[du.back()]) du.pop_back();` (src/lib/trillionDTW.cpp:36-37),
and with `cmp := <` the loop at lines 42-43.  Each iteration decreases `size`, so `fuel` is
instantiated with the size on entry; running out of fuel with a non-empty deque would be divergence. -/
def popWhile (cmp : α → α → Bool) (t : List α) (ti : α) : Nat → Deque → Res Deque
  | 0, d => if d.empty then .ok d else .ub "diverges"
  | fuel + 1, d =>
    if d.empty then .ok d
    else do
      let b ← d.back
      let tb ← vget t b
      if cmp ti tb then
        let d ← d.popBack
        popWhile cmp t ti fuel d
      else .ok d

/-- Loop state of `lower_upper_lemire`: the two deques and the two output arrays. -/
structure LemireState (α : Type) where
  du : Deque
  dl : Deque
  l : List α
  u : List α

/-- Body of the first loop, src/lib/trillionDTW.cpp:28-50. -/
def lemireBody1 (t : List α) (r : Int) (i : Int) (s : LemireState α) : Res (LemireState α) := do
  let s ←
    if i > r then do
      let uf ← s.du.front
      let tu ← vget t uf
      let u ← vset s.u (i - r - 1) tu
      let lf ← s.dl.front
      let tl ← vget t lf
      let l ← vset s.l (i - r - 1) tl
      pure { s with l := l, u := u }
    else pure s
  let ti ← vget t i
  let tp ← vget t (i - 1)
  let s ←
    if DataT.gt ti tp then do
      let du ← s.du.popBack
      let du ← popWhile DataT.gt t ti du.size.toNat du
      pure { s with du := du }
    else do
      let dl ← s.dl.popBack
      let dl ← popWhile DataT.lt t ti dl.size.toNat dl
      pure { s with dl := dl }
  let du ← s.du.pushBack i
  let dl ← s.dl.pushBack i
  let s := { s with du := du, dl := dl }
  let uf ← s.du.front
  if i = 2 * r + 1 + uf then do
    let du ← s.du.popFront
    pure { s with du := du }
  else do
    let lf ← s.dl.front
    if i = 2 * r + 1 + lf then do
      let dl ← s.dl.popFront
      pure { s with dl := dl }
    else pure s

/-- Body of the second loop, src/lib/trillionDTW.cpp:54-62 (the debugging `printf` has no
effect on the data). -/
def lemireBody2 (t : List α) (r : Int) (i : Int) (s : LemireState α) : Res (LemireState α) := do
  let uf ← s.du.front
  let tu ← vget t uf
  let u ← vset s.u (i - r - 1) tu
  let lf ← s.dl.front
  let tl ← vget t lf
  let l ← vset s.l (i - r - 1) tl
  let s := { s with l := l, u := u }
  let s ←
    if i - uf ≥ 2 * r + 1 then do
      let du ← s.du.popFront
      pure { s with du := du }
    else pure s
  if i - lf ≥ 2 * r + 1 then do
    let dl ← s.dl.popFront
    pure { s with dl := dl }
  else pure s

/-- `lower_upper_lemire(t, len, r, l, u)` on output arrays `l0`, `u0`; returns the new
contents `(l, u)` (src/lib/trillionDTW.cpp:19-64). -/
def lowerUpperLemire (t : List α) (n r : Int) (l0 u0 : List α) : Res (List α × List α) := do
  let du ← (Deque.new (2 * r + 2)).pushBack 0
  let dl ← (Deque.new (2 * r + 2)).pushBack 0
  let s ← forInt 1 n { du := du, dl := dl, l := l0, u := u0 } (lemireBody1 t r)
  let s ← forInt n (n + r + 1) s (lemireBody2 t r)
  return (s.l, s.u)

end Onex
