import Verif.Model.GroupSpace

/-!
# Saving and loading groups
(src/Group.cpp:85-118, src/LocalLengthGroupSpace.cpp:117-149, src/GlobalGroupSpace.cpp:87-114)

Files are character lists.  How a `data_t` is printed and read is a parameter; integers are
concrete decimal.
-/

namespace Onex

/-! ## Integers as text -/

/-- Whitespace skipped by formatted extraction (`isspace` in the C locale). -/
def isSpace (c : Char) : Bool :=
  c = ' ' || c = '\n' || c = '\t' || c = '\r' || c = '\x0b' || c = '\x0c'

/-- What `out << (int) z` writes. -/
def showInt (z : Int) : Text := (toString z).toList

/-- The digit `c` stands for. -/
def digitVal (c : Char) : Nat := c.toNat - '0'.toNat

/-- Value of a digit string (most significant first). -/
def digitsVal (ds : Text) : Nat := ds.foldl (fun n c => 10 * n + digitVal c) 0

/-- Parse an optional sign and digits from the front of `t`: digits (possibly none), sign, rest. -/
def splitInt (t : Text) : Bool × Text × Text :=
  let (neg, t) := match t with
    | '-' :: t => (true, t)
    | '+' :: t => (false, t)
    | t => (false, t)
  (neg, t.takeWhile Char.isDigit, t.dropWhile Char.isDigit)

/-- An input stream: remaining text and `failbit`. -/
structure Stream where
  rest : Text
  fail : Bool

/-- `fin >> (int) x`.  The first component is `none` when `x` is left unmodified (stream already failed or at
end of file). A malformed number stores 0, an unrepresentable one the nearest `int`; both set
`failbit`. -/
def readInt (s : Stream) : Option Int × Stream :=
  if s.fail then (none, s)
  else
    let t := s.rest.dropWhile isSpace
    if t = [] then (none, { rest := [], fail := true })
    else
      let (neg, ds, rest) := splitInt t
      if ds = [] then (some 0, { rest := rest, fail := true })
      else
        let v : Int := if neg then -(digitsVal ds : Int) else (digitsVal ds : Int)
        if inIntRange v then (some v, { rest := rest, fail := false })
        else (some (if neg then -2147483648 else 2147483647), { rest := rest, fail := true })

/-- `fin >> (std::string) x`: a maximal run of non-space characters. -/
def readWord (s : Stream) : Option Text × Stream :=
  if s.fail then (none, s)
  else
    let t := s.rest.dropWhile isSpace
    if t = [] then (none, { rest := [], fail := true })
    else (some (t.takeWhile (!isSpace ·)), { rest := t.dropWhile (!isSpace ·), fail := false })

/-- How numbers are written and read (trusted, see DESIGN.md). -/
structure NumIO (α : Type) where
  /-- `out << x` with the default precision -/
  show6 : α → Text
  /-- `out << std::setprecision(digits10 + 1) << x` -/
  show16 : α → Text
  /-- `fin >> x` after whitespace has been skipped, on a non-empty rest: value and remaining
  text, or `none` when extraction fails. -/
  read : Text → Option (α × Text)

section
variable {α : Type} [DataT α]

/-- `fin >> (data_t) x`; `none` when `x` is left unmodified. A malformed number stores 0. -/
def readData (io : NumIO α) (s : Stream) : Option α × Stream :=
  if s.fail then (none, s)
  else
    let t := s.rest.dropWhile isSpace
    if t = [] then (none, { rest := [], fail := true })
    else
      match io.read t with
      | some (x, rest) => (some x, { rest := rest, fail := false })
      | none => (some DataT.zero, { rest := t, fail := true })

/-! ## Saving -/

/-- `printData`, src/TimeSeries.cpp:133-139 -/
def printData (io : NumIO α) : List α → Text
  | [] => []
  | x :: xs => io.show16 x ++ ' ' :: printData io xs

/-- Member loop of `saveGroup`, src/Group.cpp:92-99 (same chain as `getMembers`, without reading the
dataset). -/
def saveMembersLoop (g : Group α) (mm : List Membership) : Nat → Coord → Res Text
  | fuel, cur =>
    if cur.1 = -1 then .ok []
    else
      match fuel with
      | 0 => .ub "diverges"
      | fuel + 1 => do
        let e ← vget mm (cur.1 * g.subCount + cur.2)
        let rest ← saveMembersLoop g mm fuel e.prev
        return showInt cur.1 ++ ' ' :: (showInt cur.2 ++ ' ' :: rest)

/-- `Group::saveGroup`, src/Group.cpp:85-101 -/
def Group.saveGroup (io : NumIO α) (ds : Dataset α) (g : Group α) (mm : List Membership) :
    Res Text := do
  let c ← g.centroid.resolve ds
  let ms ← saveMembersLoop g mm (mm.length + 1) g.last
  return printData io c.vals ++ '\n' :: (showInt g.count ++ ' ' :: (ms ++ ['\n']))

/-- Group loop of `LocalLengthGroupSpace::saveGroups`, src/LocalLengthGroupSpace.cpp:121-134. -/
def saveGroupList (io : NumIO α) (ds : Dataset α) (mm : List Membership) (sizeOnly : Bool) :
    List (Group α) → Res Text
  | [] => .ok (if sizeOnly then ['\n'] else [])
  | g :: gs => do
    let t ← if sizeOnly then pure (showInt g.count ++ [' ']) else g.saveGroup io ds mm
    let rest ← saveGroupList io ds mm sizeOnly gs
    return t ++ rest

/-- `LocalLengthGroupSpace::saveGroups`, src/LocalLengthGroupSpace.cpp:117-135 -/
def LocalSpace.saveGroups (io : NumIO α) (ds : Dataset α) (sizeOnly : Bool) (ls : LocalSpace α) :
    Res Text := do
  let t ← saveGroupList io ds ls.memberMap sizeOnly ls.groups
  return showInt (len ls.groups) ++ '\n' :: t

/-- Loop of `GlobalGroupSpace::saveGroups`, src/GlobalGroupSpace.cpp:92-94, over the entries from index 2 on. -/
def saveLocals (io : NumIO α) (ds : Dataset α) (sizeOnly : Bool) :
    List (Option (LocalSpace α)) → Res Text
  | [] => .ok []
  | none :: _ => .ub "null dereference"
  | some ls :: rest => do
    let t ← ls.saveGroups io ds sizeOnly
    let t' ← saveLocals io ds sizeOnly rest
    return t ++ t'

/-- `GlobalGroupSpace::saveGroups`, src/GlobalGroupSpace.cpp:87-95 -/
def GlobalSpace.saveGroups (io : NumIO α) (ds : Dataset α) (sizeOnly : Bool) (gs : GlobalSpace α) :
    Res Text := do
  let t ← saveLocals io ds sizeOnly (gs.locals.drop 2)
  return showInt 2 ++ ' ' :: (showInt (len gs.locals) ++ '\n' ::
    (gs.distanceName.toList ++ '\n' :: t))

/-! ## Loading -/

/-- Reading the centroid, src/Group.cpp:106-110: `k` values into a zeroed series. -/
def readCentroid (io : NumIO α) : Nat → Stream → List α × Stream
  | 0, s => ([], s)
  | k + 1, s =>
    let (x, s) := readData io s
    let (xs, s) := readCentroid io k s
    (x.getD DataT.zero :: xs, s)

/-- State of the member loop of `loadGroup`: `index` and `start` are declared before the loop
and keep their values when an extraction leaves them unmodified. -/
structure LoadState (α : Type) where
  stream : Stream
  index : Option Int
  start : Option Int
  group : Group α
  mm : List Membership

/-- `Group::loadGroup`, src/Group.cpp:103-118 -/
def Group.loadGroup (io : NumIO α) (g : Group α) (mm : List Membership) (s : Stream) :
    Res (Group α × List Membership × Stream) := do
  let (vals, s) := readCentroid io g.memberLength.toNat s
  let g := { g with centroid := { g.centroid with src := .own vals } }
  let (cnt, s) := readInt s
  match cnt with
  | none => .ub "uninitialised read"
  | some cnt => do
    let st ← forInt 0 cnt
      ({ stream := s, index := none, start := none, group := g, mm := mm } : LoadState α)
      fun _ st => do
        let (i, s) := readInt st.stream
        let index := i <|> st.index
        let (j, s) := readInt s
        let start := j <|> st.start
        match index, start with
        | some i, some j => do
          let (g, mm) ← st.group.addMember st.mm i j
          return { stream := s, index := index, start := start, group := g, mm := mm }
        | _, _ => .ub "uninitialised read"
    return (st.group, st.mm, st.stream)

/-- `LocalLengthGroupSpace::loadGroups`, src/LocalLengthGroupSpace.cpp:137-149.  Returns the
number read, the new space and the stream. -/
def LocalSpace.loadGroups (io : NumIO α) (ls : LocalSpace α) (s : Stream) :
    Res (Int × LocalSpace α × Stream) := do
  let ls := { ls with groups := [] }
  let (n, s) := readInt s
  match n with
  | none => .ub "uninitialised read"
  | some n => do
    let (ls, s) ← forInt 0 (toUnsigned n) (ls, s) fun i st => do
      let g : Group α := Group.new i st.1.length st.1.subCount
      let (g, mm, s) ← g.loadGroup io st.1.memberMap st.2
      return ({ st.1 with groups := st.1.groups ++ [g], memberMap := mm }, s)
    return (n, ls, s)

/-- `boost::trim_right` on a word without spaces is the identity, src/GlobalGroupSpace.cpp:105;
`fin >> distance` leaves the string empty when it fails. -/
def readName (s : Stream) : Text × Stream :=
  let (w, s) := readWord s
  (w.getD [], s)

/-- `GlobalGroupSpace::loadGroups`, src/GlobalGroupSpace.cpp:97-114, on a fresh space.  Returns the outcome and the
space left behind (lengths loaded before an exception are not recorded: only an unknown distance or `std::length_error` can throw). -/
def GlobalSpace.loadGroups (io : NumIO α) (ds : Dataset α) (gs : GlobalSpace α) (s : Stream) :
    Eff (GlobalSpace α) Int :=
  let gs : GlobalSpace α := { gs with locals := [] }
  let (lenFrom, s) := readInt s
  let (lenTo, s) := readInt s
  let (name, s) := readName s
  let gs := { gs with distanceName := String.ofList name }
  match getDistance (String.ofList name) with
  | .throw e => (.throw e, gs)
  | .ub w => (.ub w, gs)
  | .ok _ =>
    if ds.itemLength + 1 < 0 then (.throw .lengthError, gs)
    else
      let locals0 : List (Option (LocalSpace α)) := List.replicate (ds.itemLength + 1).toNat none
      match lenFrom, lenTo with
      | some lenFrom, some lenTo =>
        let run : Res (Int × List (Option (LocalSpace α)) × Stream) :=
          forInt (toUnsigned lenFrom) (toUnsigned lenTo) (0, locals0, s) fun i st => do
            let ls ← LocalSpace.new ds i
            let (n, ls, s) ← ls.loadGroups io st.2.2
            let locals ← vset st.2.1 i (some ls)
            return (st.1 + n, locals, s)
        match run with
        | .ok (n, locals, _) => (.ok n, { gs with locals := locals })
        | .throw e => (.throw e, gs)
        | .ub w => (.ub w, gs)
      | _, _ => (.ub "uninitialised read", gs)

end

end Onex
