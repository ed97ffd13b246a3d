import Verif.Model.Basic
import Mathlib.Tactic.Linarith
import Mathlib.Tactic.Ring

/-!
# Reasoning rules for outcomes, loops and checked buffers
-/

namespace Onex
namespace Res

variable {α β : Type}

theorem Ensures.bind {x : Res α} {f : α → Res β} {P : α → Prop} {Q : β → Prop}
    (hx : x.Ensures P) (hf : ∀ a, P a → (f a).Ensures Q) : (x >>= f).Ensures Q := by
  obtain ⟨a, rfl, ha⟩ := hx
  exact hf a ha

@[simp] theorem ensures_ok {a : α} {P : α → Prop} : (Res.ok a).Ensures P ↔ P a := by
  constructor
  · rintro ⟨b, h, hb⟩
    cases h
    exact hb
  · intro h
    exact ⟨a, rfl, h⟩

@[simp] theorem not_ensures_throw {e : Exc} {P : α → Prop} : ¬ (Res.throw e : Res α).Ensures P := by
  rintro ⟨_, h, _⟩
  cases h

@[simp] theorem not_ensures_ub {w : String} {P : α → Prop} : ¬ (Res.ub w : Res α).Ensures P := by
  rintro ⟨_, h, _⟩
  cases h

theorem Ensures.mono {x : Res α} {P Q : α → Prop} (hx : x.Ensures P) (h : ∀ a, P a → Q a) :
    x.Ensures Q := by
  obtain ⟨a, rfl, ha⟩ := hx
  exact ⟨a, rfl, h a ha⟩

theorem Ensures.and {x : Res α} {P Q : α → Prop} (hP : x.Ensures P) (hQ : x.Ensures Q) :
    x.Ensures (fun a => P a ∧ Q a) := by
  obtain ⟨a, rfl, ha⟩ := hP
  exact ⟨a, rfl, ha, by simpa using hQ⟩

theorem Ensures.of_eq {x : Res α} {a : α} (h : x = .ok a) {P : α → Prop} (ha : P a) :
    x.Ensures P := ⟨a, h, ha⟩

/-- A value-determining `Ensures` is an equation. -/
theorem Ensures.eq_ok {x : Res α} {a : α} (h : x.Ensures (· = a)) : x = .ok a := by
  obtain ⟨b, rfl, rfl⟩ := h
  rfl

theorem bind_eq_ok {x : Res α} {f : α → Res β} {b : β} :
    (x >>= f) = .ok b ↔ ∃ a, x = .ok a ∧ f a = .ok b := by
  cases x <;> simp

theorem bind_assoc' {γ : Type} (x : Res α) (f : α → Res β) (g : β → Res γ) :
    ((x >>= f) >>= g) = (x >>= fun a => f a >>= g) := by
  cases x <;> rfl

/-- A conditional step followed by a continuation, as `do` blocks elaborate it. -/
theorem ite_bind_eq {c : Prop} [Decidable c] {x y : Res α} {f : α → Res β} {a : α}
    (h : (if c then x else y) = .ok a) : (if c then x >>= f else y >>= f) = f a := by
  split at h <;> rename_i hc
  · rw [if_pos hc, h]; rfl
  · rw [if_neg hc, h]; rfl

instance : LawfulMonad Res := LawfulMonad.mk'
  (id_map := by intro α x; cases x <;> rfl)
  (pure_bind := by intros; rfl)
  (bind_assoc := by intro α β γ x f g; cases x <;> rfl)

end Res

/-! ## Loops -/

section loops
variable {σ : Type}

theorem forIntGo_ensures {body : Int → σ → Res σ} (I : Int → σ → Prop) :
    ∀ (k : Nat) (i : Int) (s : σ), I i s →
      (∀ j s, i ≤ j → j < i + k → I j s → (body j s).Ensures (I (j + 1))) →
      (forIntGo body k i s).Ensures (I (i + k))
  | 0, i, s, h0, _ => by simpa [forIntGo] using h0
  | k + 1, i, s, h0, hs => by
    unfold forIntGo
    refine Res.Ensures.bind (hs i s (le_refl _) (by omega) h0) ?_
    intro s' hs'
    have := forIntGo_ensures I k (i + 1) s' hs'
      (fun j s h1 h2 h3 => hs j s (by omega) (by omega) h3)
    have e : i + 1 + (k : Int) = i + ((k + 1 : Nat) : Int) := by omega
    rwa [e] at this

/-- Invariant rule for `for` loops (`lo ≤ hi`). -/
theorem forInt_ensures {lo hi : Int} {s : σ} {body : Int → σ → Res σ} (I : Int → σ → Prop)
    (hle : lo ≤ hi) (h0 : I lo s)
    (hs : ∀ j s, lo ≤ j → j < hi → I j s → (body j s).Ensures (I (j + 1))) :
    (forInt lo hi s body).Ensures (I hi) := by
  unfold forInt
  have := forIntGo_ensures (body := body) I (hi - lo).toNat lo s h0
    (fun j s h1 h2 h3 => hs j s h1 (by omega) h3)
  have e : lo + ((hi - lo).toNat : Int) = hi := by omega
  rwa [e] at this

theorem forInt_of_le {lo hi : Int} {s : σ} {body : Int → σ → Res σ} (h : hi ≤ lo) :
    forInt lo hi s body = .ok s := by
  unfold forInt
  have : (hi - lo).toNat = 0 := by omega
  rw [this]
  rfl

theorem forInt_succ {lo hi : Int} {s : σ} {body : Int → σ → Res σ} (h : lo < hi) :
    forInt lo hi s body = body lo s >>= fun s => forInt (lo + 1) hi s body := by
  unfold forInt
  have : (hi - lo).toNat = (hi - (lo + 1)).toNat + 1 := by omega
  rw [this]
  rfl

theorem forBrkGo_ensures {body : Int → σ → Res (Step σ)} (I : Int → σ → Prop) (Q : σ → Prop) :
    ∀ (k : Nat) (i : Int) (s : σ), I i s →
      (∀ j s, i ≤ j → j < i + k → I j s → (body j s).Ensures fun
        | .next s' => I (j + 1) s'
        | .brk s' => Q s') →
      (forBrkGo body k i s).Ensures (fun s => I (i + k) s ∨ Q s)
  | 0, i, s, h0, _ => by
    simp only [forBrkGo, Res.ensures_ok]
    left
    simpa using h0
  | k + 1, i, s, h0, hs => by
    unfold forBrkGo
    refine Res.Ensures.bind (hs i s (le_refl _) (by omega) h0) ?_
    intro st hst
    cases st with
    | next s' =>
      have := forBrkGo_ensures I Q k (i + 1) s' hst
        (fun j s h1 h2 h3 => hs j s (by omega) (by omega) h3)
      have e : i + 1 + (k : Int) = i + ((k + 1 : Nat) : Int) := by omega
      rwa [e] at this
    | brk s' =>
      simp only [Res.ensures_ok]
      right
      exact hst

/-- Invariant rule for `for` loops with `break`: afterwards either the loop ran to its end and the
invariant holds there, or it was left by `break` in a state satisfying `Q`. -/
theorem forBrk_ensures {lo hi : Int} {s : σ} {body : Int → σ → Res (Step σ)} (I : Int → σ → Prop)
    (Q : σ → Prop) (hle : lo ≤ hi) (h0 : I lo s)
    (hs : ∀ j s, lo ≤ j → j < hi → I j s → (body j s).Ensures fun
        | .next s' => I (j + 1) s'
        | .brk s' => Q s') :
    (forBrk lo hi s body).Ensures (fun s => I hi s ∨ Q s) := by
  unfold forBrk
  have := forBrkGo_ensures (body := body) I Q (hi - lo).toNat lo s h0
    (fun j s h1 h2 h3 => hs j s h1 (by omega) h3)
  have e : lo + ((hi - lo).toNat : Int) = hi := by omega
  rwa [e] at this

theorem forBrk_of_le {lo hi : Int} {s : σ} {body : Int → σ → Res (Step σ)} (h : hi ≤ lo) :
    forBrk lo hi s body = .ok s := by
  unfold forBrk
  have : (hi - lo).toNat = 0 := by omega
  rw [this]
  rfl

end loops

/-! ## Buffers -/

section buffers
variable {α : Type}

@[simp] theorem len_nil : len ([] : List α) = 0 := rfl
@[simp] theorem len_cons (a : α) (l : List α) : len (a :: l) = len l + 1 := by simp [len]
@[simp] theorem len_append (l l' : List α) : len (l ++ l') = len l + len l' := by simp [len]
@[simp] theorem len_replicate (n : Nat) (a : α) : len (List.replicate n a) = n := by simp [len]
@[simp] theorem len_map {β : Type} (f : α → β) (l : List α) : len (l.map f) = len l := by simp [len]
@[simp] theorem len_set (l : List α) (i : Nat) (a : α) : len (l.set i a) = len l := by simp [len]
theorem len_nonneg (l : List α) : 0 ≤ len l := by simp [len]

theorem vget_nat {l : List α} {i : Nat} (h : i < l.length) : vget l (i : Int) = .ok l[i] := by
  simp [vget, h]

theorem vget_of_getElem? {l : List α} {i : Int} {v : α} (h0 : 0 ≤ i) (h : l[i.toNat]? = some v) :
    vget l i = .ok v := by
  simp [vget, h0, h]

theorem vget_eq_ok {l : List α} {i : Int} {v : α} :
    vget l i = .ok v ↔ 0 ≤ i ∧ l[i.toNat]? = some v := by
  unfold vget
  split
  · rename_i h
    cases hh : l[i.toNat]? <;> simp [h]
  · rename_i h
    simp [h]

theorem vget_lt {l : List α} {i : Int} {v : α} (h : vget l i = .ok v) : 0 ≤ i ∧ i < len l := by
  obtain ⟨h0, h1⟩ := vget_eq_ok.mp h
  refine ⟨h0, ?_⟩
  have := (List.getElem?_eq_some_iff.mp h1).1
  simp only [len]
  omega

theorem vget_ok {l : List α} {i : Int} (h0 : 0 ≤ i) (h1 : i < len l) :
    ∃ v, vget l i = .ok v ∧ l[i.toNat]? = some v := by
  have h : i.toNat < l.length := by simp only [len] at h1; omega
  exact ⟨l[i.toNat], by simp [vget, h0, h], by simp [h]⟩

theorem vset_ok {l : List α} {i : Int} (v : α) (h0 : 0 ≤ i) (h1 : i < len l) :
    vset l i v = .ok (l.set i.toNat v) := by
  simp [vset, h0, h1]

theorem vset_nat {l : List α} {i : Nat} (v : α) (h : i < l.length) :
    vset l (i : Int) v = .ok (l.set i v) := by
  simp [vset, len, h]

theorem vset_eq_ok {l l' : List α} {i : Int} {v : α} :
    vset l i v = .ok l' ↔ (0 ≤ i ∧ i < len l) ∧ l' = l.set i.toNat v := by
  unfold vset
  split
  · rename_i h
    simp only [Res.ok.injEq, h, and_self, true_and]
    exact eq_comm
  · rename_i h
    simp [h]

theorem vset_len {l l' : List α} {i : Int} {v : α} (h : vset l i v = .ok l') :
    l'.length = l.length := by
  rw [(vset_eq_ok.mp h).2]
  simp

/-- Reading back after a write. -/
theorem vget_vset {l l' : List α} {i j : Int} {v : α} (h : vset l i v = .ok l') :
    vget l' j = if j = i then .ok v else vget l j := by
  obtain ⟨⟨h0, h1⟩, rfl⟩ := vset_eq_ok.mp h
  by_cases hj : j = i
  · subst hj
    have : j.toNat < l.length := by simp only [len] at h1; omega
    simp [vget, h0, this]
  · simp only [hj, if_false]
    unfold vget
    by_cases hj0 : 0 ≤ j
    · have : i.toNat ≠ j.toNat := by omega
      simp [hj0, List.getElem?_set_ne this]
    · simp [hj0]

theorem vset_vget {l : List α} {i : Int} {x : α} (v : α) (h : vget l i = .ok x) :
    vset l i v = .ok (l.set i.toNat v) :=
  vset_ok v (vget_lt h).1 (vget_lt h).2

end buffers

/-! ## Matrices -/

section mats
variable {α : Type}

/-- `c` has `m` rows of `n` cells. -/
def IsMat (c : Mat α) (m n : Nat) : Prop := c.length = m ∧ ∀ row ∈ c, row.length = n

theorem isMat_replicate (m n : Nat) (a : α) :
    IsMat (List.replicate m (List.replicate n a)) m n := by
  constructor
  · simp
  · intro row h
    rw [List.eq_of_mem_replicate h]
    simp

theorem mget_ok {c : Mat α} {m n : Nat} (hc : IsMat c m n) {i j : Nat} (hi : i < m) (hj : j < n) :
    ∃ v, mget c i j = .ok v := by
  obtain ⟨h1, h2⟩ := hc
  have hi' : i < c.length := by omega
  have hrow := h2 c[i] (List.getElem_mem hi')
  have hj' : j < (c[i]).length := by omega
  exact ⟨c[i][j], by simp [mget, vget_nat hi', vget_nat hj']⟩

theorem mset_ok {c : Mat α} {m n : Nat} (hc : IsMat c m n) {i j : Nat} (hi : i < m) (hj : j < n)
    (v : α) : ∃ c', mset c i j v = .ok c' ∧ IsMat c' m n ∧
      ∀ p q : Nat, mget c' p q = if p = i ∧ q = j then .ok v else mget c p q := by
  obtain ⟨h1, h2⟩ := hc
  have hi' : i < c.length := by omega
  have hrow := h2 c[i] (List.getElem_mem hi')
  have hj' : j < (c[i]).length := by omega
  refine ⟨c.set i (c[i].set j v), ?_, ⟨?_, ?_⟩, ?_⟩
  · simp [mset, vget_nat hi', vset_nat v hj', vset_nat _ hi']
  · simpa using h1
  · intro row hmem
    rcases List.mem_or_eq_of_mem_set hmem with h | h
    · exact h2 row h
    · rw [h]
      simpa using hrow
  · intro p q
    unfold mget
    have hs := vset_nat (c[i].set j v) hi'
    rw [vget_vset hs]
    by_cases hp : p = i
    · subst hp
      simp only [if_true, Res.bind_ok, true_and, vget_nat hi']
      rw [vget_vset (vset_nat v hj')]
      by_cases hq : q = j
      · simp [hq]
      · have : (q : Int) ≠ j := by omega
        simp [hq, this]
    · have : (p : Int) ≠ i := by omega
      simp [hp, this]

end mats

end Onex
