import Verif.Proofs.Deque
import Verif.Spec.DequeSpec

/-!
# C12: the circular deque behaves like a list
-/

namespace Onex

open Spec

/-- One operation on the modelled deque. -/
def Deque.op : DqOp → Deque → Res (DqObs × Deque)
  | .pushBack v, d => do
    let d ← d.pushBack v
    return (.none, d)
  | .popFront, d => do
    let d ← d.popFront
    return (.none, d)
  | .popBack, d => do
    let d ← d.popBack
    return (.none, d)
  | .front, d => do
    let v ← d.front
    return (.int v, d)
  | .back, d => do
    let v ← d.back
    return (.int v, d)
  | .empty, d => .ok (.bool d.empty, d)

/-- A sequence of operations on the modelled deque. -/
def Deque.run : List DqOp → Deque → Res (List DqObs)
  | [], _ => .ok []
  | op :: ops, d => do
    let (o, d) ← Deque.op op d
    let os ← Deque.run ops d
    return o :: os

theorem deque_step {c : ℕ} {d : Deque} {l l' : List Int} {op : DqOp} {o : DqObs} (h : Rep c d l)
    (hs : dqStep c op l = some (o, l')) : ∃ d', Deque.op op d = .ok (o, d') ∧ Rep c d' l' := by
  cases op with
  | pushBack v =>
    simp only [dqStep] at hs
    split at hs
    · rename_i hlt
      cases hs
      obtain ⟨d', h1, h2⟩ := rep_pushBack h hlt v
      exact ⟨d', by simp [Deque.op, h1], h2⟩
    · cases hs
  | popFront =>
    cases l with
    | nil => simp [dqStep] at hs
    | cons x l =>
      simp [dqStep] at hs
      obtain ⟨d', h1, h2⟩ := rep_popFront h
      exact ⟨d', by simp [Deque.op, h1, hs.1], hs.2 ▸ h2⟩
  | popBack =>
    rcases List.eq_nil_or_concat l with rfl | ⟨l0, x, hl⟩
    · simp [dqStep] at hs
    · rw [List.concat_eq_append] at hl
      subst hl
      simp [dqStep] at hs
      obtain ⟨d', h1, h2⟩ := rep_popBack h
      exact ⟨d', by simp [Deque.op, h1, hs.1], hs.2 ▸ h2⟩
  | front =>
    cases l with
    | nil => simp [dqStep] at hs
    | cons x l =>
      simp [dqStep] at hs
      obtain ⟨rfl, rfl⟩ := hs
      exact ⟨d, by simp [Deque.op, rep_front h], h⟩
  | back =>
    rcases List.eq_nil_or_concat l with rfl | ⟨l0, x, hl⟩
    · simp [dqStep] at hs
    · rw [List.concat_eq_append] at hl
      subst hl
      simp [dqStep] at hs
      obtain ⟨rfl, rfl⟩ := hs
      exact ⟨d, by simp [Deque.op, rep_back h], h⟩
  | empty =>
    simp [dqStep] at hs
    obtain ⟨rfl, rfl⟩ := hs
    exact ⟨d, by simp [Deque.op, rep_empty h], h⟩

/-- C12: every sequence of operations that respects the contract (no pop or peek when empty, never
more than `c` elements) runs on the circular array of capacity `c` without undefined behaviour and
shows the same results as on a list. -/
theorem C12_deque_refines_list (c : ℕ) (ops : List DqOp) (os : List DqObs)
    (h : dqRun c ops [] = some os) : Deque.run ops (Deque.new c) = .ok os := by
  suffices H : ∀ (ops : List DqOp) (l : List Int) (d : Deque) (os : List DqObs), Rep c d l →
      dqRun c ops l = some os → Deque.run ops d = .ok os from H ops [] _ os (rep_new c) h
  intro ops
  induction ops with
  | nil =>
    intro l d os _ hr
    simp [dqRun] at hr
    simp [Deque.run, hr]
  | cons op ops ih =>
    intro l d os hrep hr
    simp only [dqRun, Option.bind_eq_bind] at hr
    rcases hst : dqStep c op l with _ | ⟨o, l'⟩
    · rw [hst] at hr
      cases hr
    · rw [hst] at hr
      obtain ⟨d', h1, h2⟩ := deque_step hrep hst
      rcases hos : dqRun c ops l' with _ | os'
      · simp [hos] at hr
      · simp [hos] at hr
        simp [Deque.run, h1, ih l' d' os' h2 hos, hr]

/-- A run that wraps around a capacity of 2. -/
example : ∃ os, dqRun 2 [.pushBack 1, .pushBack 2, .popFront, .pushBack 3, .back, .front, .popBack,
    .empty] [] = some os := ⟨_, rfl⟩

end Onex
