/-!
# Specification of a bounded double-ended queue (independent of the model)
-/

namespace Onex.Spec

/-- The operations of the deque. -/
inductive DqOp where
  | pushBack (v : Int)
  | popFront
  | popBack
  | front
  | back
  | empty

/-- What an operation shows to the caller. -/
inductive DqObs where
  | none
  | int (v : Int)
  | bool (b : Bool)

/-- The operation on a list, or `none` when it is used outside its contract: pop or peek on an
empty queue, or push on a full one. -/
def dqStep (c : Nat) : DqOp → List Int → Option (DqObs × List Int)
  | .pushBack v, l => if l.length < c then some (.none, l ++ [v]) else .none
  | .popFront, l => if l = [] then .none else some (.none, l.tail)
  | .popBack, l => if l = [] then .none else some (.none, l.dropLast)
  | .front, l => l.head?.map fun v => (.int v, l)
  | .back, l => l.getLast?.map fun v => (.int v, l)
  | .empty, l => some (.bool l.isEmpty, l)

/-- Observations of a sequence of operations on a list. -/
def dqRun (c : Nat) : List DqOp → List Int → Option (List DqObs)
  | [], _ => some []
  | op :: ops, l => do
    let (o, l) ← dqStep c op l
    let os ← dqRun c ops l
    return o :: os

end Onex.Spec
