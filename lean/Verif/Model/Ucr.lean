import Verif.Model.Lemire
import Verif.Model.Trillion

/-!
# The search of the UCR suite (src/lib/trillionDTW.cpp:66-170, 244-572)

`data_t` arrays from `malloc` start with arbitrary contents: the parameter `junk`.  A file is the list of the
numbers `fscanf("%lf")` reads from it, and then `EOF`; text that is not a number is not modelled, nor are `fopen` and `malloc` failures
(which exit), the counters of pruned candidates and what is printed.
-/

namespace Onex

variable {α : Type} [DataT α]
open DataT

/-! ## Lower bounds -/

/-- `(t[k] - mean) / std` -/
def zAt (t : List α) (mean std : α) (k : Int) : Res α := do
  let x ← vget t k
  return div (sub x mean) std

/-- `lb_kim_hierarchy`, src/lib/trillionDTW.cpp:71-112 -/
def lbKim (t q : List α) (j n : Int) (mean std bsf : α) : Res α := do
  let x0 ← zAt t mean std j
  let y0 ← zAt t mean std (n - 1 + j)
  let q0 ← vget q 0
  let qe ← vget q (n - 1)
  let lb := add (distM x0 q0) (distM y0 qe)
  if ge lb bsf then return lb
  let x1 ← zAt t mean std (j + 1)
  let q1 ← vget q 1
  let d := minM (distM x1 q0) (distM x0 q1)
  let d := minM d (distM x1 q1)
  let lb := add lb d
  if ge lb bsf then return lb
  let y1 ← zAt t mean std (n - 2 + j)
  let qf ← vget q (n - 2)
  let d := minM (distM y1 qe) (distM y0 qf)
  let d := minM d (distM y1 qf)
  let lb := add lb d
  if ge lb bsf then return lb
  let x2 ← zAt t mean std (j + 2)
  let q2 ← vget q 2
  let d := minM (distM x0 q2) (distM x1 q2)
  let d := minM d (distM x2 q2)
  let d := minM d (distM x2 q1)
  let d := minM d (distM x2 q0)
  let lb := add lb d
  if ge lb bsf then return lb
  let y2 ← zAt t mean std (n - 3 + j)
  let qg ← vget q (n - 3)
  let d := minM (distM y0 qg) (distM y1 qg)
  let d := minM d (distM y2 qg)
  let d := minM d (distM y2 qf)
  let d := minM d (distM y2 qe)
  return add lb d

/-- Body of the loop of `lb_keogh_cumulative`, src/lib/trillionDTW.cpp:128-138, with the loop's second condition; the
state is `lb` and `cb`. -/
def lbKeoghStep (order : List Int) (t uo lo : List α) (j : Int) (mean std bsf : α) (i : Int)
    (s : α × List α) : Res (Step (α × List α)) := do
  if lt s.1 bsf then
    let o ← vget order i
    let x ← zAt t mean std (o + j)
    let u ← vget uo i
    let d ←
      if gt x u then pure (distM x u)
      else do
        let l ← vget lo i
        pure (if lt x l then distM x l else zero)
    let cb ← vset s.2 o d
    return .next (add s.1 d, cb)
  else return .brk s

/-- `lb_keogh_cumulative`, src/lib/trillionDTW.cpp:123-140: the bound and the new contents of `cb`. -/
def lbKeogh (order : List Int) (t uo lo cb : List α) (j n : Int) (mean std bsf : α) : Res (α × List α) :=
  forBrk 0 n (zero, cb) (lbKeoghStep order t uo lo j mean std bsf)

/-- Body of the loop of `lb_keogh_data_cumulative`, src/lib/trillionDTW.cpp:155-168. `l` and `u` are pointers into the
arrays `lBuff` and `uBuff`, at offset `off`. -/
def lbKeoghDataStep (order : List Int) (qo lBuff uBuff : List α) (off : Int) (mean std bsf : α) (i : Int)
    (s : α × List α) : Res (Step (α × List α)) := do
  if lt s.1 bsf then
    let o ← vget order i
    let uu ← zAt uBuff mean std (off + o)
    let ll ← zAt lBuff mean std (off + o)
    let q ← vget qo i
    let d :=
      if gt q uu then distM q uu
      else if lt q ll then distM q ll
      else zero
    let cb ← vset s.2 o d
    return .next (add s.1 d, cb)
  else return .brk s

/-- `lb_keogh_data_cumulative`, src/lib/trillionDTW.cpp:150-170 (its argument `tz` is not used). -/
def lbKeoghData (order : List Int) (qo cb lBuff uBuff : List α) (off n : Int) (mean std bsf : α) :
    Res (α × List α) :=
  forBrk 0 n (zero, cb) (lbKeoghDataStep order qo lBuff uBuff off mean std bsf)

/-- `cb[m-1]=cb1[m-1]; for(k=m-2; k>=0; k--) cb[k] = cb[k+1]+cb1[k];`, src/lib/trillionDTW.cpp:494-505; iteration `n` of the
loop has `k = m-2-n`. -/
def cumulate (m : Int) (src cb : List α) : Res (List α) := do
  let e ← vget src (m - 1)
  let cb ← vset cb (m - 1) e
  forInt 0 (m - 1) cb fun n cb => do
    let k := m - 2 - n
    let x ← vget cb (k + 1)
    let y ← vget src k
    vset cb k (add x y)

/-! ## The query -/

/-- What is prepared from the query: `q` (z-normalised), the permutation `order` that `qsort` produced, and `q` and its envelope
arranged by it. -/
structure UcrQuery (α : Type) where
  m : Int
  r : Int
  q : List α
  order : List Int
  qo : List α
  uo : List α
  lo : List α

/-- State while reading the query file: `q`, `ex`, `ex2`. -/
structure ReadState (α : Type) where
  q : List α
  ex : α
  ex2 : α
  rest : List α

/-- `while(fscanf(qp,"%lf",&d) != EOF && i < m)`, src/lib/trillionDTW.cpp:354-360: at most `m` numbers are used. -/
def readQuery (m : Int) (file q : List α) : Res (ReadState α) :=
  forBrk 0 m { q := q, ex := zero, ex2 := zero, rest := file } fun i s =>
    match s.rest with
    | [] => .ok (.brk s)
    | d :: rest => do
      let q ← vset s.q i d
      return .next { q := q, ex := add s.ex d, ex2 := add s.ex2 (mul d d), rest := rest }

/-- `sqrt(ex2/m - (ex/m)*(ex/m))`, src/lib/trillionDTW.cpp:364-366 and 460-462 -/
def stdOf (m : Int) (ex ex2 : α) : α :=
  let mean := div ex (ofInt m)
  sqrt (sub (div ex2 (ofInt m)) (mul mean mean))

/-- Reading and preparing the query, src/lib/trillionDTW.cpp:348-389. -/
def prepare (junk : α) (order : List Int) (file : List α) (m r : Int) : Res (UcrQuery α) := do
  let fresh := List.replicate m.toNat junk
  let s ← readQuery m file fresh
  let mean := div s.ex (ofInt m)
  let std := stdOf m s.ex s.ex2
  let q ← forInt 0 m s.q fun i q => do
    let x ← vget q i
    vset q i (div (sub x mean) std)
  let (l, u) ← lowerUpperLemire q m r fresh fresh
  let (qo, uo, lo) ← forInt 0 m (fresh, fresh, fresh) fun i s => do
    let o ← vget order i
    let x ← vget q o
    let qo ← vset s.1 i x
    let x ← vget u o
    let uo ← vset s.2.1 i x
    let x ← vget l o
    let lo ← vset s.2.2 i x
    return (qo, uo, lo)
  return { m := m, r := r, q := q, order := order, qo := qo, uo := uo, lo := lo }

/-! ## One data point -/

/-- The variables that live through the scan. -/
structure UcrState (α : Type) where
  t : List α
  ex : α
  ex2 : α
  cb : List α
  cb1 : List α
  cb2 : List α
  tz : List α
  bsf : α
  loc : Int

/-- One candidate window, src/lib/trillionDTW.cpp:469-521: `j` is where it starts in `t`, `off` (`I` in the code) where it starts in the
chunk, `pos` where it starts in the file. -/
def ucrCandidate (Q : UcrQuery α) (lBuff uBuff : List α) (mean std : α) (j off pos : Int) (s : UcrState α) :
    Res (UcrState α) := do
  let lbk ← lbKim s.t Q.q j Q.m mean std s.bsf
  if lt lbk s.bsf then
    let (lb1, cb1) ← lbKeogh Q.order s.t Q.uo Q.lo s.cb1 j Q.m mean std s.bsf
    let s := { s with cb1 := cb1 }
    if lt lb1 s.bsf then
      let tz ← forInt 0 Q.m s.tz fun k tz => do
        let z ← zAt s.t mean std (k + j)
        vset tz k z
      let s := { s with tz := tz }
      let (lb2, cb2) ← lbKeoghData Q.order Q.qo s.cb2 lBuff uBuff off Q.m mean std s.bsf
      let s := { s with cb2 := cb2 }
      if lt lb2 s.bsf then
        let cb ← cumulate Q.m (if gt lb1 lb2 then s.cb1 else s.cb2) s.cb
        let s := { s with cb := cb }
        let dist ← dtw s.tz Q.q s.cb Q.m Q.r s.bsf
        if lt dist s.bsf then return { s with bsf := dist, loc := pos }
        else return s
      else return s
    else return s
  else return s

/-- Body of the loop over a chunk, src/lib/trillionDTW.cpp:442-527 -/
def ucrPoint (epoch : Int) (Q : UcrQuery α) (buffer lBuff uBuff : List α) (it i : Int) (s : UcrState α) :
    Res (UcrState α) := do
  let d ← vget buffer i
  let ex := add s.ex d
  let ex2 := add s.ex2 (mul d d)
  let t ← vset s.t (i.tmod Q.m) d
  let t ← vset t (i.tmod Q.m + Q.m) d
  let s := { s with t := t, ex := ex, ex2 := ex2 }
  if i ≥ Q.m - 1 then
    let mean := div ex (ofInt Q.m)
    let std := stdOf Q.m ex ex2
    let j := (i + 1).tmod Q.m
    let s ← ucrCandidate Q lBuff uBuff mean std j (i - (Q.m - 1)) (it * (epoch - Q.m + 1) + i - Q.m + 1) s
    let tj ← vget s.t j
    return { s with ex := sub s.ex tj, ex2 := sub s.ex2 (mul tj tj) }
  else return s

/-! ## Chunks -/

/-- The first `m-1` points of a chunk, src/lib/trillionDTW.cpp:408-418: from the file, or from the end of the previous chunk. -/
def fillFirst (epoch m it : Int) (buffer rest : List α) : Res (List α × List α) :=
  if it = 0 then
    forInt 0 (m - 1) (buffer, rest) fun k s =>
      match s.2 with
      | [] => .ok s
      | d :: rest => do
        let b ← vset s.1 k d
        return (b, rest)
  else do
    let b ← forInt 0 (m - 1) buffer fun k b => do
      let x ← vget b (epoch - m + 1 + k)
      vset b k x
    return (b, rest)

/-- `while(ep<EPOCH)`, src/lib/trillionDTW.cpp:420-427: buffer, rest of the file and `ep`. -/
def fillRest (epoch m : Int) (buffer rest : List α) : Res (List α × List α × Int) :=
  forBrk (m - 1) epoch (buffer, rest, m - 1) fun ep s =>
    match s.2.1 with
    | [] => .ok (.brk s)
    | d :: rest => do
      let b ← vset s.1 ep d
      return .next (b, rest, ep + 1)

/-- What survives from chunk to chunk. -/
structure UcrRun (α : Type) where
  buffer : List α
  lBuff : List α
  uBuff : List α
  rest : List α
  it : Int
  ep : Int
  s : UcrState α

/-- `while(!done)`, src/lib/trillionDTW.cpp:406-535. Every round but the last reads at least one number, so `fuel` is two more than the
length of the file. The dot printed for progress divides by `1000000/(EPOCH-m+1)`. -/
def ucrLoop (epoch : Int) (Q : UcrQuery α) : Nat → UcrRun α → Res (UcrRun α)
  | 0, _ => .ub "diverges"
  | fuel + 1, x => do
    let (buffer, rest) ← fillFirst epoch Q.m x.it x.buffer x.rest
    let (buffer, rest, ep) ← fillRest epoch Q.m buffer rest
    let x := { x with buffer := buffer, rest := rest, ep := ep }
    if ep ≤ Q.m - 1 then return x
    else
      let (l, u) ← lowerUpperLemire buffer ep Q.r x.lBuff x.uBuff
      if epoch - Q.m + 1 = 0 ∨ (1000000 : Int).tdiv (epoch - Q.m + 1) = 0 then .ub "division by zero"
      else
        let s ← forInt 0 ep { x.s with ex := zero, ex2 := zero } (ucrPoint epoch Q buffer l u x.it)
        let x := { x with lBuff := l, uBuff := u, s := s }
        if ep < epoch then return x
        else ucrLoop epoch Q fuel { x with it := x.it + 1 }

/-- `calculate` with chunks of `epoch` points, src/lib/trillionDTW.cpp:245-572: the location, the square of the distance, and the
number of points scanned. -/
def calculateWith (epoch : Int) (junk : α) (order : List Int) (data query : List α) (m r : Int) :
    Res (Int × α × Int) := do
  let Q ← prepare junk order query m r
  let zeros := List.replicate m.toNat zero
  let big := List.replicate epoch.toNat junk
  let x ← ucrLoop epoch Q (data.length + 2)
    { buffer := big, lBuff := big, uBuff := big, rest := data, it := 0, ep := 0,
      s := { t := List.replicate (2 * m).toNat junk, ex := zero, ex2 := zero, cb := zeros, cb1 := zeros, cb2 := zeros,
             tz := List.replicate m.toNat junk, bsf := infTrillion, loc := 0 } }
  return (x.s.loc, x.s.bsf, x.it * (epoch - m + 1) + x.ep)

/-- `calculate`, src/lib/trillionDTW.cpp:245-572; `EPOCH` is 100000 (line 266). -/
def calculate (junk : α) (order : List Int) (data query : List α) (m r : Int) : Res (Int × α × Int) :=
  calculateWith 100000 junk order data query m r

end Onex
