import Verif.Model.Ucr
import Verif.Model.Int32

/-!
# The UCR search with 32-bit `int` (src/lib/trillionDTW.cpp:244-572)

`it`, `EPOCH`, `ep`, `m` and `k` are `int`; `i`, `j` and `I` are `long long`. The products of `it` and the sums of positions that are
`int` are checked where they are evaluated; in the envelopes every expression is (`lowerUpperLemire32`). Not checked: indices of
arrays of `m` elements and of the `2*r+1` elements of `dtw`, the increments of counters, and the number of windows
pruned by each bound (at most the number of windows).
-/

namespace Onex

variable {α : Type} [DataT α]
open DataT

/-- `prepare` with the checks of the envelope, src/lib/trillionDTW.cpp:348-389. -/
def prepare32 (junk : α) (order : List Int) (file : List α) (m r : Int) : Res (UcrQuery α) := do
  let fresh := List.replicate m.toNat junk
  let s ← readQuery m file fresh
  let mean := div s.ex (ofInt m)
  let std := stdOf m s.ex s.ex2
  let q ← forInt 0 m s.q fun i q => do
    let x ← vget q i
    vset q i (div (sub x mean) std)
  let (l, u) ← lowerUpperLemire32 q m r fresh fresh
  let (qo, uo, lo) ← forInt 0 m (fresh, fresh, fresh) fun i s => do
    let o ← vget order i
    let x ← vget q o
    let qo ← vset s.1 i x
    let x ← vget u o
    let uo ← vset s.2.1 i x
    let x ← vget l o
    let lo ← vset s.2.2 i x
    return (qo, uo, lo)
  return { m := m, r := r, q := q, order := order, qo := qo, uo := uo, lo := lo }

/-- One candidate, src/lib/trillionDTW.cpp:469-521. Line 514, reached for a better candidate only, is
`loc = (it)*(EPOCH-m+1) + i-m+1`: the product `base` is an `int`, the sum is not. -/
def ucrCandidate32 (Q : UcrQuery α) (lBuff uBuff : List α) (mean std : α) (j off base pos : Int) (s : UcrState α) :
    Res (UcrState α) := do
  let lbk ← lbKim s.t Q.q j Q.m mean std s.bsf
  if lt lbk s.bsf then
    let (lb1, cb1) ← lbKeogh Q.order s.t Q.uo Q.lo s.cb1 j Q.m mean std s.bsf
    let s := { s with cb1 := cb1 }
    if lt lb1 s.bsf then
      let tz ← forInt 0 Q.m s.tz fun k tz => do
        let z ← zAt s.t mean std (k + j)
        vset tz k z
      let s := { s with tz := tz }
      let (lb2, cb2) ← lbKeoghData Q.order Q.qo s.cb2 lBuff uBuff off Q.m mean std s.bsf
      let s := { s with cb2 := cb2 }
      if lt lb2 s.bsf then
        let cb ← cumulate Q.m (if gt lb1 lb2 then s.cb1 else s.cb2) s.cb
        let s := { s with cb := cb }
        let dist ← dtw s.tz Q.q s.cb Q.m Q.r s.bsf
        if lt dist s.bsf then
          ck base
          return { s with bsf := dist, loc := pos }
        else return s
      else return s
    else return s
  else return s

/-- Body of the loop over a chunk, src/lib/trillionDTW.cpp:442-527 -/
def ucrPoint32 (epoch : Int) (Q : UcrQuery α) (buffer lBuff uBuff : List α) (it i : Int) (s : UcrState α) :
    Res (UcrState α) := do
  let d ← vget buffer i
  let ex := add s.ex d
  let ex2 := add s.ex2 (mul d d)
  let t ← vset s.t (i.tmod Q.m) d
  let t ← vset t (i.tmod Q.m + Q.m) d
  let s := { s with t := t, ex := ex, ex2 := ex2 }
  if i ≥ Q.m - 1 then
    let mean := div ex (ofInt Q.m)
    let std := stdOf Q.m ex ex2
    let j := (i + 1).tmod Q.m
    let s ← ucrCandidate32 Q lBuff uBuff mean std j (i - (Q.m - 1)) (it * (epoch - Q.m + 1))
      (it * (epoch - Q.m + 1) + i - Q.m + 1) s
    let tj ← vget s.t j
    return { s with ex := sub s.ex tj, ex2 := sub s.ex2 (mul tj tj) }
  else return s

/-- `while(!done)`, src/lib/trillionDTW.cpp:406-535 -/
def ucrLoop32 (epoch : Int) (Q : UcrQuery α) : Nat → UcrRun α → Res (UcrRun α)
  | 0, _ => .ub "diverges"
  | fuel + 1, x => do
    let (buffer, rest) ← fillFirst epoch Q.m x.it x.buffer x.rest
    let (buffer, rest, ep) ← fillRest epoch Q.m buffer rest
    let x := { x with buffer := buffer, rest := rest, ep := ep }
    if ep ≤ Q.m - 1 then return x
    else
      let (l, u) ← lowerUpperLemire32 buffer ep Q.r x.lBuff x.uBuff
      if epoch - Q.m + 1 = 0 ∨ (1000000 : Int).tdiv (epoch - Q.m + 1) = 0 then .ub "division by zero"
      else
        let s ← forInt 0 ep { x.s with ex := zero, ex2 := zero } (ucrPoint32 epoch Q buffer l u x.it)
        let x := { x with lBuff := l, uBuff := u, s := s }
        if ep < epoch then return x
        else do
          ck (x.it + 1)
          ucrLoop32 epoch Q fuel { x with it := x.it + 1 }

/-- `calculate`, src/lib/trillionDTW.cpp:245-572. Line 537 is `i = (it)*(EPOCH-m+1) + ep`, computed as an `int`. -/
def calculate32 (junk : α) (order : List Int) (data query : List α) (m r : Int) : Res (Int × α × Int) := do
  let Q ← prepare32 junk order query m r
  let zeros := List.replicate m.toNat zero
  let big := List.replicate 100000 junk
  let x ← ucrLoop32 100000 Q (data.length + 2)
    { buffer := big, lBuff := big, uBuff := big, rest := data, it := 0, ep := 0,
      s := { t := List.replicate (2 * m).toNat junk, ex := zero, ex2 := zero, cb := zeros, cb1 := zeros, cb2 := zeros,
             tz := List.replicate m.toNat junk, bsf := infTrillion, loc := 0 } }
  ck (x.it * (100000 - m + 1))
  ck (x.it * (100000 - m + 1) + x.ep)
  return (x.s.loc, x.s.bsf, x.it * (100000 - m + 1) + x.ep)

end Onex
