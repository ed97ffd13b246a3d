import Verif.Proofs.Lemire
import Verif.Proofs.Loops

/-!
# `lower_upper_lemire` on the front part of longer arrays

The UCR search calls it on a buffer of which only the first `len` places are in use.
-/

namespace Onex

/-- Where `a` has a result, `b` has the image of that result. -/
def Sim {β γ : Type} (g : β → γ) (a : Res β) (b : Res γ) : Prop := ∀ x, a = .ok x → b = .ok (g x)

namespace Sim

variable {β γ δ ε : Type}

theorem bind {g : β → γ} {h : δ → ε} {a : Res β} {b : Res γ} {f : β → Res δ} {f' : γ → Res ε} (h1 : Sim g a b)
    (h2 : ∀ x, Sim h (f x) (f' (g x))) : Sim h (a >>= f) (b >>= f') := by
  intro y hy
  obtain ⟨x, hx, hf⟩ := Res.bind_eq_ok.mp hy
  rw [h1 x hx]
  exact h2 x y hf

theorem same {h : δ → ε} {a : Res β} {f : β → Res δ} {f' : β → Res ε} (h2 : ∀ x, Sim h (f x) (f' x)) :
    Sim h (a >>= f) (a >>= f') := bind (g := id) (fun _ h => h) h2

theorem ite {g : β → γ} {a a' : Res β} {b b' : Res γ} {c : Prop} [Decidable c] (h1 : Sim g a b) (h2 : Sim g a' b') :
    Sim g (if c then a else a') (if c then b else b') := by
  split
  · exact h1
  · exact h2

theorem ok {g : β → γ} {x : β} {y : γ} (h : y = g x) : Sim g (.ok x) (.ok y) := by
  intro z hz
  cases hz
  rw [h]

theorem ub {g : β → γ} {w : String} {b : Res γ} : Sim g (.ub w) b := by
  intro z hz
  cases hz

theorem pure_bind {h : δ → ε} {x : β} {y : γ} {f : β → Res δ} {f' : γ → Res ε} (h2 : Sim h (f x) (f' y)) :
    Sim h (pure x >>= f) (pure y >>= f') := h2

theorem vget {t t2 : List β} {i : Int} {h : δ → ε} {f : β → Res δ} {f' : β → Res ε} (h2 : ∀ x, Sim h (f x) (f' x)) :
    Sim h (Onex.vget t i >>= f) (Onex.vget (t ++ t2) i >>= f') := by
  refine bind (g := id) ?_ h2
  intro x hx
  obtain ⟨h0, h1⟩ := vget_eq_ok.mp hx
  have := (List.getElem?_eq_some_iff.mp h1).1
  exact vget_of_getElem? h0 (by rw [List.getElem?_append_left this, h1]; rfl)

theorem vset {l l2 : List β} {i : Int} {v : β} {h : δ → ε} {f : List β → Res δ} {f' : List β → Res ε}
    (h2 : ∀ x, Sim h (f x) (f' (x ++ l2))) :
    Sim h (Onex.vset l i v >>= f) (Onex.vset (l ++ l2) i v >>= f') := by
  refine bind (g := fun x => x ++ l2) ?_ h2
  intro x hx
  obtain ⟨⟨h0, h1⟩, rfl⟩ := vset_eq_ok.mp hx
  rw [vset_ok _ h0 (by have := len_nonneg l2; simp; omega), List.set_append_left _ _ (by simp only [len] at h1; omega)]

theorem forIntGo {σ τ : Type} {g : σ → τ} {body : Int → σ → Res σ} {body' : Int → τ → Res τ}
    (h : ∀ i s, Sim g (body i s) (body' i (g s))) :
    ∀ (k : Nat) (i : Int) (s : σ), Sim g (Onex.forIntGo body k i s) (Onex.forIntGo body' k i (g s))
  | 0, _, _ => ok rfl
  | k + 1, i, s => bind (h i s) fun x => forIntGo h k (i + 1) x

end Sim

variable {α : Type} [DataT α]

omit [DataT α] in
theorem popWhile_sim (cmp : α → α → Bool) (t t2 : List α) (ti : α) :
    ∀ (k : Nat) (d : Deque), Sim id (popWhile cmp t ti k d) (popWhile cmp (t ++ t2) ti k d)
  | 0, d => fun _ h => h
  | k + 1, d => by
    unfold popWhile
    refine Sim.ite (Sim.ok rfl) (Sim.same fun b => Sim.vget fun tb => Sim.ite (Sim.same fun d => ?_) (Sim.ok rfl))
    exact popWhile_sim cmp t t2 ti k d

/-- The state on the longer arrays. -/
def LemireState.ext (l2 u2 : List α) (s : LemireState α) : LemireState α := { s with l := s.l ++ l2, u := s.u ++ u2 }

/-- Steps through two programs that differ in the arrays only. -/
macro "sim_steps" : tactic => `(tactic| repeat' (first
  | exact Sim.ok rfl
  | (refine Sim.bind (g := id) (popWhile_sim _ _ _ _ _ _) ?_; intro _; dsimp only [id])
  | (refine Sim.vget ?_; intro _)
  | (refine Sim.vset ?_; intro _)
  | (refine Sim.same ?_; intro _)
  | (refine Sim.pure_bind ?_; dsimp only)
  | (refine Sim.ite ?_ ?_)))

theorem lemireBody1_sim (t t2 l2 u2 : List α) (r i : Int) (s : LemireState α) :
    Sim (LemireState.ext l2 u2) (lemireBody1 t r i s) (lemireBody1 (t ++ t2) r i (s.ext l2 u2)) := by
  unfold lemireBody1
  dsimp only [LemireState.ext]
  sim_steps

omit [DataT α] in
theorem lemireBody2_sim (t t2 l2 u2 : List α) (r i : Int) (s : LemireState α) :
    Sim (LemireState.ext l2 u2) (lemireBody2 t r i s) (lemireBody2 (t ++ t2) r i (s.ext l2 u2)) := by
  unfold lemireBody2
  dsimp only [LemireState.ext]
  sim_steps

theorem lemire_ext {t t2 l l2 u u2 l' u' : List α} {n r : Int} (h : lowerUpperLemire t n r l u = .ok (l', u')) :
    lowerUpperLemire (t ++ t2) n r (l ++ l2) (u ++ u2) = .ok (l' ++ l2, u' ++ u2) := by
  have key : Sim (fun x : List α × List α => (x.1 ++ l2, x.2 ++ u2)) (lowerUpperLemire t n r l u)
      (lowerUpperLemire (t ++ t2) n r (l ++ l2) (u ++ u2)) := by
    unfold lowerUpperLemire
    refine Sim.same fun du => Sim.same fun dl => ?_
    refine Sim.bind (g := LemireState.ext l2 u2)
      (Sim.forIntGo (fun i s => lemireBody1_sim t t2 l2 u2 r i s) _ 1 { du := du, dl := dl, l := l, u := u }) fun s => ?_
    refine Sim.bind (g := LemireState.ext l2 u2) (Sim.forIntGo (fun i s => lemireBody2_sim t t2 l2 u2 r i s) _ n s) fun s => ?_
    exact Sim.ok rfl
  exact key _ h

end Onex
