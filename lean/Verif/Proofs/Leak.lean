import Verif.Spec.Leak
import Verif.Props.SeriesObj

/-!
# What the operations on series do to ownership
-/

set_option linter.unusedSectionVars false

namespace Onex

open Store Spec

variable {α : Type} [DataT α]

theorem Store.Holds.allocated {s : Store α} {b : Nat} {c : List α} (h : s.Holds b c) :
    Allocated s b := ⟨_, h, rfl⟩

theorem Spec.Allocated.lt {s : Store α} {b : Nat} (h : Allocated s b) : b < s.heap.length := by
  obtain ⟨blk, h, _⟩ := h
  exact (List.getElem?_eq_some_iff.mp h).1

theorem allocated_alloc {s : Store α} {cells : List α} {b : Nat} :
    Allocated (s.alloc cells).1 b ↔ Allocated s b ∨ b = s.heap.length := by
  unfold Allocated alloc
  simp only
  rcases lt_trichotomy b s.heap.length with h | h | h
  · rw [List.getElem?_append_left h]
    exact ⟨Or.inl, fun h' => h'.resolve_right (by omega)⟩
  · subst h
    simp
  · rw [List.getElem?_eq_none (by simp; omega), List.getElem?_eq_none (by omega)]
    constructor
    · rintro ⟨_, h', _⟩; cases h'
    · rintro (⟨_, h', _⟩ | h')
      · cases h'
      · omega

/-- What a release does. -/
theorem free_inv {s s' : Store α} {p : Option Nat} (h : s.free p = .ok s') :
    s'.objs = s.objs ∧ s'.heap.length = s.heap.length ∧
      ∀ b, Allocated s' b ↔ Allocated s b ∧ p ≠ some b := by
  unfold free at h
  rcases p with _ | p
  · cases h
    exact ⟨rfl, rfl, fun b => ⟨fun h => ⟨h, by simp⟩, fun h => h.1⟩⟩
  · simp only at h
    rcases hb : s.heap[p]? with _ | blk
    · rw [hb] at h; cases h
    · rw [hb] at h
      simp only at h
      split at h
      · cases h
        refine ⟨rfl, by simp, fun b => ?_⟩
        unfold Allocated
        simp only
        by_cases hbp : p = b
        · subst hbp
          have := (List.getElem?_eq_some_iff.mp hb).1
          simp [this]
        · rw [List.getElem?_set_ne hbp]
          simp [hbp]
      · cases h

/-- What the release at the start of an assignment or of a destruction does. -/
theorem releaseOwned_inv {s s' : Store α} {t : Obj α} {i : Nat} (hi : s.Live i t)
    (h : (if t.owner = true then s.free t.data else pure s) = .ok s') :
    s'.objs = s.objs ∧ s'.heap.length = s.heap.length ∧
      ∀ b, Allocated s' b ↔ Allocated s b ∧ ¬ Owns s i b := by
  have hown : ∀ b, Owns s i b ↔ t.owner = true ∧ t.data = some b := by
    intro b
    constructor
    · rintro ⟨o, h1, h2, h3⟩
      unfold Live at hi
      rw [hi] at h1
      cases h1
      exact ⟨h2, h3⟩
    · rintro ⟨h2, h3⟩
      exact ⟨t, hi, h2, h3⟩
  by_cases ho : t.owner = true
  · rw [if_pos ho] at h
    obtain ⟨h1, h2, h3⟩ := free_inv h
    refine ⟨h1, h2, fun b => ?_⟩
    rw [h3, hown]
    simp [ho]
  · rw [if_neg ho] at h
    cases h
    refine ⟨rfl, rfl, fun b => ?_⟩
    rw [hown]
    simp [ho]

theorem owns_append {s s' : Store α} {o : Obj α} (h : s'.objs = s.objs ++ [some o]) (i b : Nat) :
    Owns s' i b ↔ Owns s i b ∨ (i = s.objs.length ∧ o.owner = true ∧ o.data = some b) := by
  unfold Owns
  rw [h]
  rcases lt_trichotomy i s.objs.length with hi | hi | hi
  · rw [List.getElem?_append_left hi]
    exact ⟨Or.inl, fun h => h.resolve_right (by omega)⟩
  · subst hi
    simp
  · rw [List.getElem?_eq_none (by simp; omega), List.getElem?_eq_none (by omega)]
    constructor
    · rintro ⟨_, h', _⟩; cases h'
    · rintro (⟨_, h', _⟩ | h')
      · cases h'
      · omega

theorem owns_set {s s' : Store α} {i : Nat} {t : Obj α} {n : Option (Obj α)} (hi : s.Live i t)
    (h : s'.objs = s.objs.set i n) (k b : Nat) :
    Owns s' k b ↔ (k ≠ i ∧ Owns s k b) ∨
      (k = i ∧ ∃ o, n = some o ∧ o.owner = true ∧ o.data = some b) := by
  have hlt := (List.getElem?_eq_some_iff.mp hi).1
  unfold Owns
  rw [h]
  by_cases hk : k = i
  · subst hk
    simp [hlt]
  · rw [List.getElem?_set_ne (fun h => hk h.symm)]
    simp [hk]

theorem ownedBlock_eq {s : Store α} {i b : Nat} : ownedBlock s i = some b ↔ Owns s i b := by
  unfold ownedBlock Owns
  rcases h : s.objs[i]? with _ | (_ | o) <;> simp

/-- What one operation does to the blocks; `lost` are those that stay allocated and lose their
owner. -/
structure Moves (st st' : SState α) (lost : List Nat) : Prop where
  ext : ∀ b, b ∈ st'.2 ↔ b ∈ st.2 ∨ (b = st.1.heap.length ∧ b ∈ st'.2)
  grows : st.1.heap.length ≤ st'.1.heap.length
  old : ∀ b, b < st.1.heap.length → b ∉ st.2 →
    (Allocated st'.1 b → Allocated st.1 b) ∧
    (∀ i, Owns st'.1 i b → ∃ k, Owns st.1 k b) ∧
    (b ∈ lost → Allocated st'.1 b ∧ (∃ k, Owns st.1 k b) ∧ ∀ i, ¬ Owns st'.1 i b) ∧
    (b ∉ lost → (∃ k, Owns st.1 k b) → Allocated st'.1 b → ∃ i, Owns st'.1 i b) ∧
    ((∀ k, ¬ Owns st.1 k b) → Allocated st.1 b → Allocated st'.1 b)
  new : ∀ b, st.1.heap.length ≤ b → Allocated st'.1 b → b ∈ st'.2 ∨ ∃ i, Owns st'.1 i b
  lost_lt : ∀ b ∈ lost, b < st.1.heap.length ∧ b ∉ st.2

/-- Nothing happens to allocation and ownership. -/
theorem Moves.same {s s' : Store α} {ext : List Nat} (hl : s'.heap.length = s.heap.length)
    (ha : ∀ b, Allocated s' b ↔ Allocated s b) (ho : ∀ i b, Owns s' i b ↔ Owns s i b) :
    Moves (s, ext) (s', ext) [] where
  ext b := ⟨Or.inl, fun h => h.elim id (fun h => h.2)⟩
  grows := by simp [hl]
  old b _ _ := ⟨(ha b).mp, fun i h => ⟨i, (ho i b).mp h⟩, by simp,
    fun _ ⟨k, hk⟩ _ => ⟨k, (ho k b).mpr hk⟩, fun _ h => (ha b).mpr h⟩
  new b hb h := by
    have := ((ha b).mp h).lt
    simp only at hb
    omega
  lost_lt := by simp

/-- New contents in one block. -/
theorem same_of_heap {s s' : Store α} {b0 : Nat} {c c' : List α} (h0 : s.Holds b0 c)
    (h1 : s'.Holds b0 c') (h2 : ∀ b : Nat, b ≠ b0 → s'.heap[b]? = s.heap[b]?) :
    s'.heap.length = s.heap.length ∧ ∀ b, Allocated s' b ↔ Allocated s b := by
  have hnone : ∀ b : Nat, s'.heap[b]? = none ↔ s.heap[b]? = none := by
    intro b
    by_cases hb : b = b0
    · subst hb
      unfold Holds at h0 h1
      simp [h0, h1]
    · rw [h2 b hb]
  refine ⟨le_antisymm ?_ ?_, fun b => ?_⟩
  · exact List.getElem?_eq_none_iff.mp ((hnone _).mpr (List.getElem?_eq_none_iff.mpr (le_refl _)))
  · exact List.getElem?_eq_none_iff.mp ((hnone _).mp (List.getElem?_eq_none_iff.mpr (le_refl _)))
  · by_cases hb : b = b0
    · subst hb
      exact ⟨fun _ => h0.allocated, fun _ => h1.allocated⟩
    · unfold Allocated
      rw [h2 b hb]

/-- Another cache in one object. -/
theorem owns_recache {s s' : Store α} {i : Nat} {o : Obj α} {cache : Option (Cache α)}
    (h1 : s.Live i o) (h : s'.objs = s.objs.set i (some { o with cache := cache })) (k b : Nat) :
    Owns s' k b ↔ Owns s k b := by
  rw [owns_set h1 h]
  by_cases hk : k = i
  · subst hk
    simp only [ne_eq, not_true_eq_false, false_and, Option.some.injEq, exists_eq_left', true_and,
      false_or]
    constructor
    · rintro ⟨q1, q2⟩
      exact ⟨o, h1, q1, q2⟩
    · rintro ⟨o2, q1, q2, q3⟩
      unfold Live at h1
      rw [h1] at q1
      cases q1
      exact ⟨q2, q3⟩
  · simp [hk]

theorem step_moves {st st' : SState α} (h : st.1.Inv st.2) {op : SOp α} (hl : Legal st op)
    (e : op.step st = .ok st') : Moves st st' (overwritten st op) := by
  rcases st with ⟨s, ext⟩
  replace h : s.Inv ext := h
  cases op with
  | newOwned n =>
    simp only [SOp.step] at e
    unfold newOwned at e
    split at e
    · cases e
    · simp only [Res.bind_ok, Res.pure_eq, Res.ok.injEq] at e
      subst e
      set cells := List.replicate n.toNat (DataT.zero : α)
      have ha : ∀ b, Allocated ({ (s.alloc cells).1 with objs := (s.alloc cells).1.objs ++ [some
          { data := some (s.alloc cells).2, off := 0, owner := true, index := 0, start := 0,
            stop := n, length := n, cache := none }] } : Store α) b ↔
          Allocated s b ∨ b = s.heap.length := fun b => allocated_alloc
      have ho := owns_append (s := s) (s' := { (s.alloc cells).1 with objs := (s.alloc cells).1.objs ++ [some
          { data := some (s.alloc cells).2, off := 0, owner := true, index := 0, start := 0,
            stop := n, length := n, cache := none }] }) rfl
      refine ⟨fun b => ⟨Or.inl, fun h => h.elim id (fun h => h.2)⟩, by simp [alloc], ?_, ?_,
        by simp [overwritten]⟩
      · intro b hb hne
        simp only at hb
        refine ⟨fun h => ((ha b).mp h).resolve_right (by omega), ?_, by simp [overwritten], ?_,
          fun _ h => (ha b).mpr (Or.inl h)⟩
        · intro i hi
          rcases (ho i b).mp hi with h | ⟨_, _, h⟩
          · exact ⟨i, h⟩
          · simp only [alloc, Option.some.injEq] at h
            omega
        · rintro _ ⟨k, hk⟩ _
          exact ⟨k, (ho k b).mpr (Or.inl hk)⟩
      · intro b hb hall
        rcases (ha b).mp hall with h | h
        · have := h.lt
          simp only at hb
          omega
        · right
          exact ⟨_, (ho _ b).mpr (Or.inr ⟨rfl, rfl, by simp [alloc, h]⟩)⟩
  | newExt cells =>
    simp only [SOp.step, Res.ok.injEq] at e
    subst e
    refine ⟨fun b => ?_, by simp [alloc], ?_, ?_, by simp [overwritten]⟩
    · simp [alloc]
      tauto
    · intro b hb hne
      simp only at hb
      refine ⟨fun h => (allocated_alloc.mp h).resolve_right (by omega), fun i hi => ⟨i, hi⟩,
        by simp [overwritten], fun _ hk _ => hk, fun _ h => allocated_alloc.mpr (Or.inl h)⟩
    · intro b hb hall
      rcases allocated_alloc.mp hall with h | h
      · have := h.lt
        simp only at hb
        omega
      · left
        simp [alloc, h]
  | newView b0 off index start stop =>
    simp only [SOp.step, Res.ok.injEq] at e
    subst e
    refine Moves.same rfl (fun b => Iff.rfl) (fun i b => ?_)
    rw [owns_append (s := s) (s' := (s.newView b0 off index start stop).1) rfl]
    simp
  | copy j =>
    obtain ⟨o, h1, h2⟩ := hl
    replace h1 : s.Live _ o := h1
    obtain ⟨s1, o', g1, g2, g3, _, _, g6, g7, g8, _⟩ := copyInto_ok (h.objs j o h1) h2 none
    have hlen : s1.heap.length ≤ s.heap.length + 1 ∧ s.heap.length ≤ s1.heap.length ∧
        (∀ b, Allocated s1 b ↔ Allocated s b ∨ (o.owner = true ∧ b = s.heap.length)) := by
      by_cases ho : o.owner = true
      · unfold copyInto at g1
        rw [if_pos ho] at g1
        split at g1
        · cases g1
        · obtain ⟨cells, _, g1⟩ := Res.bind_eq_ok.mp g1
          cases g1
          refine ⟨by simp, by simp, fun b => ?_⟩
          refine allocated_alloc.trans ?_
          simp [ho]
      · rw [(g8 (by simpa using ho)).2]
        exact ⟨by omega, le_refl _, fun b => by simp [ho]⟩
    simp only [SOp.step, copy, obj_eq_ok.mpr h1, Res.bind_ok, g1, Res.pure_eq, Res.ok.injEq] at e
    subst e
    have ho := owns_append (s := s) (s' := { s1 with objs := s1.objs ++ [some o'] }) (o := o')
      (by simp [g2])
    have ha : ∀ b, Allocated { s1 with objs := s1.objs ++ [some o'] } b ↔ _ := hlen.2.2
    refine ⟨fun b => ⟨Or.inl, fun h => h.elim id (fun h => h.2)⟩, hlen.2.1, ?_, ?_,
      by simp [overwritten]⟩
    · intro b hb hne
      simp only at hb
      refine ⟨fun h => ((ha b).mp h).resolve_right (by omega), ?_, by simp [overwritten], ?_,
        fun _ h => (ha b).mpr (Or.inl h)⟩
      · intro i hi
        rcases (ho i b).mp hi with h | ⟨_, h3, h4⟩
        · exact ⟨i, h⟩
        · rw [g7 (g6 ▸ h3)] at h4
          cases h4
          omega
      · rintro _ ⟨k, hk⟩ _
        exact ⟨k, (ho k b).mpr (Or.inl hk)⟩
    · intro b hb hall
      rcases (ha b).mp hall with h | ⟨h3, h4⟩
      · have := h.lt
        simp only at hb
        omega
      · right
        exact ⟨_, (ho _ b).mpr (Or.inr ⟨rfl, g6.trans h3, by rw [g7 h3, h4]⟩)⟩
  | copyAssign i j =>
    obtain ⟨t, o, h1, ⟨h2, h3⟩, h4⟩ := hl
    replace h1 : s.Live i t := h1
    replace h2 : s.Live j o := h2
    simp only [SOp.step] at e
    obtain ⟨s', e1, e⟩ := Res.bind_eq_ok.mp e
    cases e
    unfold copyAssign at e1
    rw [obj_eq_ok.mpr h1] at e1
    simp only [Res.bind_ok] at e1
    obtain ⟨s1, f1, f2, _, f4, f5, f6⟩ := release_ok h h1
    rw [Res.ite_bind_eq f1] at e1
    obtain ⟨r1, r2, r3⟩ := releaseOwned_inv h1 f1
    have hj1 : s1.obj j = .ok o := by
      rw [obj_eq_ok]
      unfold Live
      rw [r1]
      exact h2
    simp only [hj1, Res.bind_ok] at e1
    obtain ⟨⟨s2, o'⟩, g1, e1⟩ := Res.bind_eq_ok.mp e1
    simp only [Res.pure_eq, Res.ok.injEq] at e1
    have hc : s2.objs = s1.objs ∧ o'.owner = o.owner ∧
        (o.owner = true → o'.data = some s1.heap.length) ∧
        s1.heap.length ≤ s2.heap.length ∧
        (∀ b, Allocated s2 b ↔ Allocated s1 b ∨ (o.owner = true ∧ b = s1.heap.length)) := by
      unfold copyInto at g1
      by_cases ho : o.owner = true
      · rw [if_pos ho] at g1
        split at g1
        · cases g1
        · obtain ⟨cells, _, g1⟩ := Res.bind_eq_ok.mp g1
          cases g1
          refine ⟨rfl, rfl, fun _ => rfl, by simp, fun b => ?_⟩
          refine allocated_alloc.trans ?_
          simp [ho]
      · rw [if_neg ho] at g1
        cases g1
        exact ⟨rfl, rfl, fun h => absurd h ho, le_refl _, fun b => by simp [ho]⟩
    obtain ⟨c1, c2, c3, c4, c5⟩ := hc
    have ho := owns_set (s := s) (s' := s') (n := some o') h1
      (by subst e1; simp [setObj, c1, r1])
    have ha : ∀ b, Allocated s' b ↔ Allocated s2 b := by subst e1; exact fun b => Iff.rfl
    have hl' : s'.heap = s2.heap := by subst e1; rfl
    refine ⟨fun b => ⟨Or.inl, fun h => h.elim id (fun h => h.2)⟩, by simp [hl']; omega, ?_, ?_,
      by simp [overwritten]⟩
    · intro b hb hne
      simp only at hb
      refine ⟨?_, ?_, by simp [overwritten], ?_, ?_⟩
      · intro hall
        rw [ha, c5] at hall
        exact ((r3 b).mp (hall.resolve_right (fun q => by have := q.2; omega))).1
      · intro k hk
        rcases (ho k b).mp hk with ⟨_, h⟩ | ⟨_, o2, ho2, h5, h6⟩
        · exact ⟨k, h⟩
        · cases ho2
          rw [c3 (c2 ▸ h5)] at h6
          cases h6
          omega
      · rintro _ ⟨k, hk⟩ hall
        rw [ha, c5] at hall
        have hno := ((r3 b).mp (hall.resolve_right (fun q => by have := q.2; omega))).2
        exact ⟨k, (ho k b).mpr (Or.inl ⟨fun he => hno (he ▸ hk), hk⟩)⟩
      · intro hno hall
        rw [ha, c5]
        exact Or.inl ((r3 b).mpr ⟨hall, hno i⟩)
    · intro b hb hall
      rw [ha, c5] at hall
      rcases hall with h | ⟨h5, h6⟩
      · have := h.lt
        simp only at hb
        omega
      · right
        exact ⟨i, (ho i b).mpr (Or.inr ⟨rfl, o', rfl, c2.trans h5, by rw [c3 h5, h6]⟩)⟩
  | moveAssign i j =>
    obtain ⟨t, o, h1, h2⟩ := hl
    replace h1 : s.Live i t := h1
    replace h2 : s.Live j o := h2
    obtain ⟨s', g1, _, g3, g4, g5⟩ := inv_moveAssign h h1 h2
    simp only [SOp.step, g1, Res.bind_ok, Res.pure_eq, Res.ok.injEq] at e
    subst e
    have ha : ∀ b, Allocated s' b ↔ Allocated s b := by
      intro b; unfold Allocated; rw [g3]
    have hownj : ∀ b, Owns s j b ↔ o.owner = true ∧ o.data = some b := by
      intro b
      constructor
      · rintro ⟨o2, q1, q2, q3⟩
        unfold Live at h2
        rw [h2] at q1
        cases q1
        exact ⟨q2, q3⟩
      · rintro ⟨q2, q3⟩
        exact ⟨o, h2, q2, q3⟩
    have ho : ∀ k b, Owns s' k b ↔ (k ≠ i ∧ k ≠ j ∧ Owns s k b) ∨ (k = i ∧ i ≠ j ∧ Owns s j b) := by
      intro k b
      by_cases hij : i = j
      · subst hij
        rw [owns_set h1 (g5 rfl)]
        simp
      · have hset : s'.objs = (({ s with objs := s.objs.set i (some { o with cache := t.cache }) } :
            Store α).objs).set j (some { o with data := none }) := g4 hij
        have hj' : ({ s with objs := s.objs.set i (some { o with cache := t.cache }) } :
            Store α).Live j o := setObj_live_ne (fun h => hij h.symm) h2
        rw [owns_set hj' hset, owns_set (s := s) h1 rfl, hownj]
        simp only [Option.some.injEq, exists_eq_left', reduceCtorEq, and_false, or_false]
        constructor
        · rintro ⟨q1, ⟨q2, q3⟩ | ⟨q2, q3⟩⟩
          · exact Or.inl ⟨q2, q1, q3⟩
          · exact Or.inr ⟨q2, hij, q3⟩
        · rintro (⟨q1, q2, q3⟩ | ⟨q1, q2, q3⟩)
          · exact ⟨q2, Or.inl ⟨q1, q3⟩⟩
          · exact ⟨fun h => hij (q1.symm.trans h), Or.inr ⟨q1, q3⟩⟩
    have hlost : ∀ b, b ∈ overwritten (s, ext) (.moveAssign i j) ↔ Owns s i b := by
      intro b
      simp [overwritten, ← ownedBlock_eq]
    have huniq : ∀ k k' b, Owns s k b → Owns s k' b → k = k' := by
      rintro k k' b ⟨o1, q1, q2, q3⟩ ⟨o2, p1, p2, p3⟩
      exact h.uniq k k' o1 o2 b q1 p1 q2 p2 q3 p3
    have hal : ∀ k b, Owns s k b → b ∉ ext ∧ Allocated s b := by
      rintro k b ⟨o1, q1, q2, q3⟩
      obtain ⟨q4, c, q5, _⟩ := ((h.objs k o1 q1).own q2).2.2.2 b q3
      exact ⟨q4, q5.allocated⟩
    refine ⟨fun b => ⟨Or.inl, fun h => h.elim id (fun h => h.2)⟩, by simp [g3], ?_, ?_, ?_⟩
    · intro b hb hne
      refine ⟨(ha b).mp, ?_, ?_, ?_, fun _ h => (ha b).mpr h⟩
      · intro k hk
        rcases (ho k b).mp hk with ⟨_, _, q⟩ | ⟨_, _, q⟩
        · exact ⟨k, q⟩
        · exact ⟨j, q⟩
      · intro hb'
        have hi' := (hlost b).mp hb'
        refine ⟨(ha b).mpr (hal i b hi').2, ⟨i, hi'⟩, ?_⟩
        intro k hk
        rcases (ho k b).mp hk with ⟨q1, _, q⟩ | ⟨_, q1, q⟩
        · exact q1 (huniq k i b q hi')
        · exact q1 (huniq i j b hi' q)
      · rintro hb' ⟨k, hk⟩ _
        have hki : k ≠ i := fun he => hb' ((hlost b).mpr (he ▸ hk))
        by_cases hkj : k = j
        · subst hkj
          exact ⟨i, (ho i b).mpr (Or.inr ⟨rfl, fun h => hki h.symm, hk⟩)⟩
        · exact ⟨k, (ho k b).mpr (Or.inl ⟨hki, hkj, hk⟩)⟩
    · intro b hb hall
      have := ((ha b).mp hall).lt
      simp only at hb
      omega
    · intro b hb
      have hi' := hal i b ((hlost b).mp hb)
      exact ⟨hi'.2.lt, hi'.1⟩
  | destroy i =>
    obtain ⟨t, h1⟩ := hl
    replace h1 : s.Live i t := h1
    simp only [SOp.step] at e
    obtain ⟨s', e1, e⟩ := Res.bind_eq_ok.mp e
    cases e
    unfold destroy at e1
    rw [obj_eq_ok.mpr h1] at e1
    simp only [Res.bind_ok] at e1
    obtain ⟨s1, f1, _⟩ := release_ok h h1
    rw [Res.ite_bind_eq f1] at e1
    obtain ⟨r1, r2, r3⟩ := releaseOwned_inv h1 f1
    simp only [Res.pure_eq, Res.ok.injEq] at e1
    have ho := owns_set (s := s) (s' := s') (n := none) h1 (by subst e1; simp [setObj, r1])
    have ha : ∀ b, Allocated s' b ↔ Allocated s b ∧ ¬ Owns s i b := by subst e1; exact r3
    have hl' : s'.heap.length = s.heap.length := by subst e1; exact r2
    refine ⟨fun b => ⟨Or.inl, fun h => h.elim id (fun h => h.2)⟩, by simp [hl'], ?_, ?_,
      by simp [overwritten]⟩
    · intro b hb hne
      refine ⟨fun h => ((ha b).mp h).1, ?_, by simp [overwritten], ?_,
        fun hno h => (ha b).mpr ⟨h, hno i⟩⟩
      · intro k hk
        rcases (ho k b).mp hk with ⟨_, q⟩ | ⟨_, o2, q, _⟩
        · exact ⟨k, q⟩
        · cases q
      · rintro _ ⟨k, hk⟩ hall
        exact ⟨k, (ho k b).mpr (Or.inl ⟨fun he => ((ha b).mp hall).2 (he ▸ hk), hk⟩)⟩
    · intro b hb hall
      have := ((ha b).mp hall).1.lt
      simp only at hb
      omega
  | put i idx v =>
    obtain ⟨o, h1, h2⟩ := hl
    replace h1 : s.Live _ o := h1
    obtain ⟨b0, hb0⟩ := Option.ne_none_iff_exists'.mp h2
    simp only [SOp.step] at e
    by_cases hidx : 0 ≤ idx ∧ idx < o.length
    · obtain ⟨s', c, g0, g1, _, g3, g4, g5⟩ := inv_put h h1 hb0 v hidx.1 hidx.2
      simp only [g1, Res.bind_ok, Res.pure_eq, Res.ok.injEq] at e
      subst e
      obtain ⟨q1, q2⟩ := same_of_heap g0 g4 g5
      exact Moves.same q1 q2 (fun k b => by unfold Owns; rw [g3])
    · unfold put at e
      rw [obj_eq_ok.mpr h1] at e
      simp only [Res.bind_ok] at e
      rw [if_pos (by omega)] at e
      cases e
  | addAssign i j =>
    obtain ⟨o, p, ⟨h1, h2⟩, h3, h4⟩ := hl
    obtain ⟨b0, hb⟩ := Option.ne_none_iff_exists'.mp h2
    obtain ⟨b1, hb'⟩ := Option.ne_none_iff_exists'.mp h4
    obtain ⟨_, _, ca, hca, _⟩ := (h.objs i o h1).window hb
    obtain ⟨_, _, cp, hcp, _⟩ := (h.objs j p h3).window hb'
    simp only [SOp.step] at e
    by_cases hlen : p.length = o.length
    · obtain ⟨s', c', g1, g2, _, g3, _, g4, _⟩ := addAssign_spec h h1 h3 hb hb' hca hcp hlen
      simp only [g1, Res.bind_ok, Res.pure_eq, Res.ok.injEq] at e
      subst e
      obtain ⟨q1, q2⟩ := same_of_heap hca g3 g4
      exact Moves.same q1 q2 (owns_recache h1 g2)
    · unfold addAssign at e
      rw [obj_eq_ok.mpr h1, obj_eq_ok.mpr h3] at e
      simp only [Res.bind_ok] at e
      rw [if_pos hlen] at e
      cases e
  | keogh junk i band =>
    obtain ⟨o, h1, h2⟩ := hl
    replace h1 : s.Live _ o := h1
    simp only [SOp.step] at e
    obtain ⟨⟨lu, s'⟩, e1, e2⟩ := Res.bind_eq_ok.mp e
    cases e2
    obtain ⟨cache, rfl⟩ := keogh_state h1 e1
    exact Moves.same rfl (fun b => Iff.rfl) (owns_recache h1 rfl)

/-- The blocks of a history that are leaked so far are `lost`. -/
def Accounted (st : SState α) (lost : List Nat) : Prop :=
  lost.Nodup ∧ ∀ b, Leaked st b ↔ b ∈ lost

theorem accounted_step {st st' : SState α} (h : st.1.Inv st.2) {op : SOp α} (hl : Legal st op)
    (e : op.step st = .ok st') {lost : List Nat} (ha : Accounted st lost) :
    Accounted st' (lost ++ overwritten st op) := by
  have m := step_moves h hl e
  have hlt : ∀ b ∈ lost, b < st.1.heap.length := fun b hb => ((ha.2 b).mpr hb).1.lt
  have hov : ∀ b ∈ overwritten st op, ∃ k, Owns st.1 k b := by
    intro b hb
    obtain ⟨q1, q2⟩ := m.lost_lt b hb
    exact ((m.old b q1 q2).2.2.1 hb).2.1
  have hext : ∀ b, b < st.1.heap.length → (b ∈ st'.2 ↔ b ∈ st.2) := by
    intro b hb
    rw [m.ext b]
    exact ⟨fun q => q.resolve_right (by omega), Or.inl⟩
  refine ⟨?_, fun b => ?_⟩
  · rw [List.nodup_append]
    refine ⟨ha.1, ?_, ?_⟩
    · cases op <;> simp only [overwritten, List.nodup_nil]
      rename_i i j
      cases ownedBlock st.1 i <;> simp
    · intro a ha1 b hb1 hab
      subst hab
      obtain ⟨k, hk⟩ := hov a hb1
      exact ((ha.2 a).mpr ha1).2.2 k hk
  · rw [List.mem_append]
    by_cases hb : b < st.1.heap.length
    · by_cases hx : b ∈ st.2
      · constructor
        · exact fun q => absurd ((hext b hb).mpr hx) q.2.1
        · rintro (q | q)
          · exact absurd hx ((ha.2 b).mpr q).2.1
          · exact absurd hx (m.lost_lt b q).2
      · obtain ⟨q1, q2, q3, q4, q5⟩ := m.old b hb hx
        constructor
        · rintro ⟨w1, _, w3⟩
          by_cases hov' : b ∈ overwritten st op
          · exact Or.inr hov'
          · left
            refine (ha.2 b).mp ⟨q1 w1, hx, fun k hk => ?_⟩
            obtain ⟨i, hi⟩ := q4 hov' ⟨k, hk⟩ w1
            exact w3 i hi
        · rintro (w | w)
          · obtain ⟨w1, _, w3⟩ := (ha.2 b).mpr w
            refine ⟨q5 w3 w1, fun w => hx ((hext b hb).mp w), fun i hi => ?_⟩
            obtain ⟨k, hk⟩ := q2 i hi
            exact w3 k hk
          · obtain ⟨w1, _, w3⟩ := q3 w
            exact ⟨w1, fun w => hx ((hext b hb).mp w), w3⟩
    · constructor
      · rintro ⟨w1, w2, w3⟩
        rcases m.new b (by omega) w1 with w | ⟨i, w⟩
        · exact absurd w w2
        · exact absurd w (w3 i)
      · rintro (w | w)
        · exact absurd (hlt b w) hb
        · exact absurd (m.lost_lt b w).1 hb

theorem accounted_run : ∀ (ops : List (SOp α)) (st st' : SState α) (lost : List Nat),
    st.1.Inv st.2 → Respects Legal st ops → Accounted st lost → SOp.run st ops = .ok st' →
      Accounted st' (lost ++ overwrittenIn st ops)
  | [], st, st', lost, _, _, ha, e => by
    simp only [SOp.run, Res.ok.injEq] at e
    subst e
    simpa [overwrittenIn] using ha
  | op :: ops, st, st', lost, h, hr, ha, e => by
    obtain ⟨h1, h2⟩ := hr
    unfold SOp.run at e
    unfold overwrittenIn
    cases hs : op.step st with
    | ok st1 =>
      rw [hs] at h2 e
      simp only at h2 e ⊢
      rw [← List.append_assoc]
      exact accounted_run ops st1 st' _ ((legal_step h h1).1 st1 hs) h2 (accounted_step h h1 hs ha) e
    | throw m =>
      rw [hs] at h2 e
      simp only at h2 e ⊢
      have hnil : overwritten st op = [] := by
        cases op <;> try rfl
        rename_i i j
        obtain ⟨t, o, q1, q2⟩ := h1
        obtain ⟨s', g1, _⟩ := inv_moveAssign h q1 q2
        simp only [SOp.step, g1, Res.bind_ok, Res.pure_eq] at hs
        cases hs
      rw [hnil, List.nil_append]
      exact accounted_run ops st st' lost h h2 ha e
    | ub w => rw [hs] at e; cases e

theorem accounted_init : Accounted (SState.init : SState α) [] := by
  refine ⟨List.nodup_nil, fun b => ⟨?_, by simp⟩⟩
  rintro ⟨⟨blk, h, _⟩, _⟩
  simp [SState.init] at h

end Onex
