/-!
# Outcomes, loops and checked buffers

Infrastructure shared by the whole model.  Nothing here models a particular
function of /repo; it fixes how C++ control flow is rendered.
-/

namespace Onex

/-- Exceptions: `OnexException` (src/Exception.hpp) with its message, or one of the standard
library's. -/
inductive Exc : Type where
  | onex (msg : String)
  | invalidArgument
  | outOfRange
  | lengthError
  | badAlloc
deriving Repr, DecidableEq

instance : Coe String Exc := ⟨Exc.onex⟩

/-- Outcome of running a piece of C++: a value, a thrown exception or
undefined behaviour.  Undefined behaviour is kept as a separate outcome so that
"never `ub`" is the memory-safety statement. -/
inductive Res (α : Type) : Type where
  | ok (a : α)
  | throw (e : Exc)
  | ub (why : String)
deriving Repr, DecidableEq

namespace Res

/-- Sequencing: exceptions and undefined behaviour propagate. -/
def bind {α β : Type} : Res α → (α → Res β) → Res β
  | .ok a, f => f a
  | .throw m, _ => .throw m
  | .ub w, _ => .ub w

instance : Monad Res where
  pure := .ok
  bind := Res.bind

@[simp] theorem bind_ok {α β : Type} (a : α) (f : α → Res β) :
    (Res.ok a >>= f) = f a := rfl
@[simp] theorem bind_throw {α β : Type} (m : Exc) (f : α → Res β) :
    ((Res.throw m : Res α) >>= f) = Res.throw m := rfl
@[simp] theorem bind_ub {α β : Type} (w : String) (f : α → Res β) :
    ((Res.ub w : Res α) >>= f) = Res.ub w := rfl
@[simp] theorem pure_eq {α : Type} (a : α) : (pure a : Res α) = Res.ok a := rfl

/-- `x.Ensures P`: `x` runs to completion (no exception, no undefined behaviour) and its
value satisfies `P`. -/
def Ensures {α : Type} (x : Res α) (P : α → Prop) : Prop := ∃ a, x = .ok a ∧ P a

/-- The outcome is undefined behaviour. -/
def IsUb {α : Type} : Res α → Prop
  | .ub _ => True
  | _ => False

/-- The outcome is a thrown exception. -/
def IsThrow {α : Type} : Res α → Prop
  | .throw _ => True
  | _ => False

end Res

/-- Loop kernel: `k` iterations starting at index `i`. -/
def forIntGo {σ : Type} (body : Int → σ → Res σ) : Nat → Int → σ → Res σ
  | 0, _, s => .ok s
  | k + 1, i, s => body i s >>= forIntGo body k (i + 1)

/-- `for (int i = lo; i < hi; i++) s = body(i, s);` -/
def forInt {σ : Type} (lo hi : Int) (s : σ) (body : Int → σ → Res σ) : Res σ :=
  forIntGo body (hi - lo).toNat lo s

/-- What a loop body with `break` returns: carry on, or leave the loop. -/
inductive Step (σ : Type) : Type where
  | next (s : σ)
  | brk (s : σ)

def forBrkGo {σ : Type} (body : Int → σ → Res (Step σ)) : Nat → Int → σ → Res σ
  | 0, _, s => .ok s
  | k + 1, i, s => body i s >>= fun
    | .next s' => forBrkGo body k (i + 1) s'
    | .brk s' => .ok s'

/-- `for (int i = lo; i < hi; i++) { ...; if (...) break; }` -/
def forBrk {σ : Type} (lo hi : Int) (s : σ) (body : Int → σ → Res (Step σ)) : Res σ :=
  forBrkGo body (hi - lo).toNat lo s

/-- Length of a buffer as a C++ `int`. -/
def len {α : Type} (l : List α) : Int := (l.length : Int)

/-- Checked read `l[i]` from a raw buffer / `std::vector`: out of bounds is undefined. -/
def vget {α : Type} (l : List α) (i : Int) : Res α :=
  if 0 ≤ i then
    match l[i.toNat]? with
    | some v => .ok v
    | none => .ub "read out of bounds"
  else .ub "read out of bounds"

/-- Checked write `l[i] = v` to a raw buffer / `std::vector`. -/
def vset {α : Type} (l : List α) (i : Int) (v : α) : Res (List α) :=
  if 0 ≤ i ∧ i < len l then .ok (l.set i.toNat v)
  else .ub "write out of bounds"

/-- `std::vector<std::vector<T>>` -/
abbrev Mat (α : Type) := List (List α)

/-- Checked read `c[i][j]`. -/
def mget {α : Type} (c : Mat α) (i j : Int) : Res α := do
  let row ← vget c i
  vget row j

/-- Checked write `c[i][j] = v`. -/
def mset {α : Type} (c : Mat α) (i j : Int) (v : α) : Res (Mat α) := do
  let row ← vget c i
  let row' ← vset row j v
  vset c i row'

end Onex
