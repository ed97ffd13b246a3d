import Verif.Model.CentroidHist

/-!
# Memory that no series can release any more

A block of numbers is allocated by a series that owns its data, or stands for the buffer of a
dataset (`SOp.newExt`), which the dataset releases.  A block of the first kind that no living
series owns can never be released.
-/

namespace Onex.Spec

variable {α : Type} [DataT α]

/-- Block `b` has been allocated and not released. -/
def Allocated (s : Store α) (b : Nat) : Prop := ∃ blk, s.heap[b]? = some blk ∧ blk.alive = true

/-- Series `i` is alive and its destructor would release block `b`. -/
def Owns (s : Store α) (i b : Nat) : Prop :=
  ∃ o, s.objs[i]? = some (some o) ∧ o.owner = true ∧ o.data = some b

/-- Block `b` is still allocated, is no dataset's buffer, and no series would release it. -/
def Leaked (st : SState α) (b : Nat) : Prop :=
  Allocated st.1 b ∧ b ∉ st.2 ∧ ∀ i, ¬ Owns st.1 i b

/-- The block the series `i` would release. -/
def ownedBlock (s : Store α) (i : Nat) : Option Nat :=
  match s.objs[i]? with
  | some (some o) => if o.owner then o.data else none
  | _ => none

/-- The block the target of a move assignment owned when it was assigned to. -/
def overwritten (st : SState α) : SOp α → List Nat
  | .moveAssign i _ => (ownedBlock st.1 i).toList
  | _ => []

/-- All such blocks in a history, in order. -/
def overwrittenIn (st : SState α) : List (SOp α) → List Nat
  | [] => []
  | op :: ops =>
    overwritten st op ++
      match op.step st with
      | .ok st' => overwrittenIn st' ops
      | .throw _ => overwrittenIn st ops
      | .ub _ => []

/-- Every series has been destroyed. -/
def NoneLeft (s : Store α) : Prop := ∀ (i : Nat) (o : Obj α), s.objs[i]? ≠ some (some o)

/-- The number of values a block was allocated for. -/
def blockSize (s : Store α) (b : Nat) : Int := ((s.heap.map fun blk => len blk.cells)[b]?).getD 0

/-- The centroid of a group is an array of its own, or a window of the buffer. -/
def CentroidIn (buf : List α) (g : Group α) : Prop :=
  0 ≤ g.memberLength ∧ ∀ v, g.centroid.src = .view v →
    0 ≤ v.base + v.start ∧ v.start ≤ v.stop ∧ v.base + v.stop ≤ len buf

end Onex.Spec
