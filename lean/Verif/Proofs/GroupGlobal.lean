import Verif.Proofs.GroupReal

/-!
# Grouping at all lengths
-/

namespace Onex
open DataT Spec

set_option linter.unusedSectionVars false

theorem forIntGo_mono_ok {σ : Type} {f g : Int → σ → Res σ} :
    ∀ (k : Nat) (i : Int) (s s' : σ),
      (∀ j s s', i ≤ j → j < i + k → f j s = .ok s' → g j s = .ok s') →
      forIntGo f k i s = .ok s' → forIntGo g k i s = .ok s'
  | 0, _, _, _, _, e => e
  | k + 1, i, s, s', h, e => by
    unfold forIntGo at e ⊢
    obtain ⟨t, h1, h2⟩ := Res.bind_eq_ok.mp e
    rw [h i s t (le_refl _) (by omega) h1]
    exact forIntGo_mono_ok k (i + 1) t s' (fun j s s' a b c => h j s s' (by omega) (by omega) c) h2

theorem forInt_mono_ok {σ : Type} {f g : Int → σ → Res σ} {lo hi : Int} {s s' : σ}
    (h : ∀ j s s', lo ≤ j → j < hi → f j s = .ok s' → g j s = .ok s')
    (e : forInt lo hi s f = .ok s') : forInt lo hi s g = .ok s' :=
  forIntGo_mono_ok _ lo s s' (fun j s s' a b c => h j s s' a (by omega) c) e

section any
variable {α : Type} [DataT α]

/-- Logging does not influence the result of a grouping that completes. -/
theorem generateGroups_logfree {ds : Dataset α} {d : Dist α} {th : α} {doLog : Bool} {ls ls' : LocalSpace α}
    (h : ls.generateGroups ds d th doLog = .ok ls') : ls.generateGroups ds d th false = .ok ls' := by
  unfold LocalSpace.generateGroups at *
  simp only at *
  refine forInt_mono_ok ?_ h
  intro j s s' _ _ e
  refine forInt_mono_ok ?_ e
  intro j s s' _ _ e
  obtain ⟨u, h1, h2⟩ := Res.bind_eq_ok.mp e
  simpa [logProgress] using h2

/-- The groups of length `l`, computed without logging. -/
def groupsAt (ds : Dataset α) (d : Dist α) (th : α) (l : Int) : Res (LocalSpace α) := do
  let ls ← LocalSpace.new ds l
  ls.generateGroups ds d th false

/-- Number of groups in an entry of the table of lengths. -/
def entryGroups : Option (LocalSpace α) → Int
  | none => 0
  | some ls => ls.groups.length

theorem sum_set_none {β : Type} (f : Option β → Int) (h0 : f none = 0) (x : Option β) :
    ∀ (l : List (Option β)) (k : Nat), l[k]? = some none →
      ((l.set k x).map f).sum = (l.map f).sum + f x
  | [], k, h => by simp at h
  | a :: l, 0, h => by
    simp only [List.getElem?_cons_zero, Option.some.injEq] at h
    subst h
    simp [h0, add_comm]
  | a :: l, k + 1, h => by
    have := sum_set_none f h0 x l k (by simpa using h)
    simp only [List.set_cons_succ, List.map_cons, List.sum_cons, this, add_assoc]

/-- What a completed grouping leaves behind. -/
structure GroupedBy (ds : Dataset α) (d : Dist α) (th : α) (locals : List (Option (LocalSpace α))) (n : Int) :
    Prop where
  size : len locals = ds.itemLength + 1
  at_ : ∀ l, 2 ≤ l → l ≤ ds.itemLength →
    ∃ ls, groupsAt ds d th l = .ok ls ∧ vget locals l = .ok (some ls)
  short : ∀ l, 0 ≤ l → l < 2 → l ≤ ds.itemLength → vget locals l = .ok none
  total : n = (locals.map entryGroups).sum

theorem GroupedBy.entry {ds : Dataset α} {d : Dist α} {th : α} {locals n}
    (h : GroupedBy ds d th locals n) {l : Int} {ls : LocalSpace α} (e : vget locals l = .ok (some ls)) :
    2 ≤ l ∧ l ≤ ds.itemLength ∧ groupsAt ds d th l = .ok ls := by
  obtain ⟨h0, h1⟩ := vget_lt e
  rw [h.size] at h1
  by_cases h2 : l < 2
  · rw [h.short l h0 h2 (by omega)] at e
    simp at e
  · obtain ⟨ls', a, b⟩ := h.at_ l (by omega) (by omega)
    rw [b] at e
    simp only [Res.ok.injEq, Option.some.injEq] at e
    subst e
    exact ⟨by omega, by omega, a⟩

theorem GroupedBy.unique {ds : Dataset α} {d : Dist α} {th : α} {locals locals' n n'}
    (h : GroupedBy ds d th locals n) (h' : GroupedBy ds d th locals' n') : locals = locals' ∧ n = n' := by
  have e : locals = locals' := by
    have hl : locals.length = locals'.length := by
      have h1 := h.size
      have h2 := h'.size
      simp only [len] at h1 h2
      omega
    refine List.ext_getElem hl ?_
    intro i h1 h2
    have hs := h.size
    simp only [len] at hs
    have key : vget locals (i : Int) = vget locals' (i : Int) := by
      by_cases hi : (i : Int) < 2
      · rw [h.short i (by omega) hi (by omega), h'.short i (by omega) hi (by omega)]
      · obtain ⟨ls, a, b⟩ := h.at_ i (by omega) (by omega)
        obtain ⟨ls', a', b'⟩ := h'.at_ i (by omega) (by omega)
        rw [a] at a'
        simp only [Res.ok.injEq] at a'
        rw [b, b', a']
    rw [vget_nat h1, vget_nat h2] at key
    simpa using key
  exact ⟨e, by rw [h.total, h'.total, e]⟩

theorem vget_replicate_none {β : Type} {n : Nat} {l : Int} (h0 : 0 ≤ l) (h1 : l < n) :
    vget (List.replicate n (none : Option β)) l = .ok none := by
  refine vget_of_getElem? h0 ?_
  rw [List.getElem?_replicate]
  rw [if_pos (by omega)]

/-- The loop of `GlobalGroupSpace::group`, completed. -/
theorem groupLoop_okInv {ds : Dataset α} {d : Dist α} {th : α} {doLog : Int → Bool}
    (hneg : ¬ ds.itemLength + 1 < 0) {locals : List (Option (LocalSpace α))} {n : Int}
    (h : forInt 2 (ds.itemLength + 1) (List.replicate (ds.itemLength + 1).toNat none, (0 : Int)) (fun i s => do
          let ls ← LocalSpace.new ds i
          let ls ← ls.generateGroups ds d th (doLog i)
          let locals ← vset s.1 i (some ls)
          return (locals, s.2 + ls.getNumberOfGroups)) = Res.ok (locals, n)) :
    GroupedBy ds d th locals n := by
  have hsum0 : ∀ k, ((List.replicate k none).map (entryGroups (α := α))).sum = 0 := by
    intro k
    simp [entryGroups]
  by_cases hle : 2 ≤ ds.itemLength + 1
  · have := forInt_okInv (s' := (locals, n)) (fun i s => len s.1 = ds.itemLength + 1 ∧
      (∀ l, 2 ≤ l → l < i → ∃ ls, groupsAt ds d th l = .ok ls ∧ vget s.1 l = .ok (some ls)) ∧
      (∀ l, 0 ≤ l → (l < 2 ∨ i ≤ l) → l ≤ ds.itemLength → vget s.1 l = .ok none) ∧
      s.2 = (s.1.map entryGroups).sum) hle
      ⟨by simp; omega, fun l h1 h2 => by omega,
        fun l h1 _ h3 => vget_replicate_none h1 (by omega), (hsum0 _).symm⟩ ?_ h
    · exact ⟨this.1, fun l h1 h2 => this.2.1 l h1 (by omega),
        fun l h1 h2 h3 => this.2.2.1 l h1 (Or.inl h2) h3, this.2.2.2⟩
    · rintro j ⟨s1, s2⟩ ⟨s1', s2'⟩ hj1 hj2 ⟨i1, i2, i3, i4⟩ e
      simp only at i1 i2 i3 i4 e
      obtain ⟨ls0, e1, e⟩ := Res.bind_eq_ok.mp e
      obtain ⟨ls, e2, e⟩ := Res.bind_eq_ok.mp e
      obtain ⟨lc, e3, e⟩ := Res.bind_eq_ok.mp e
      simp only [Res.pure_eq, Res.ok.injEq, Prod.mk.injEq] at e
      obtain ⟨rfl, rfl⟩ := e
      have hold := i3 j (by omega) (Or.inr (le_refl _)) (by omega)
      refine ⟨?_, ?_, ?_, ?_⟩
      · simp only [len, vset_len e3] at i1 ⊢
        exact i1
      · intro l h1 h2
        simp only [vget_vset e3]
        by_cases hl : l = j
        · subst hl
          refine ⟨ls, ?_, by simp⟩
          unfold groupsAt
          rw [e1]
          exact generateGroups_logfree e2
        · rw [if_neg hl]
          exact i2 l h1 (by omega)
      · intro l h1 h2 h3
        simp only [vget_vset e3]
        rw [if_neg (by omega)]
        exact i3 l h1 (by omega) h3
      · simp only [i4, LocalSpace.getNumberOfGroups, len]
        rw [(vset_eq_ok.mp e3).2, sum_set_none _ rfl _ _ _ (vget_eq_ok.mp hold).2]
        rfl
  · rw [forInt_of_le (by omega)] at h
    simp only [Res.ok.injEq, Prod.mk.injEq] at h
    obtain ⟨rfl, rfl⟩ := h
    exact ⟨by simp; omega, fun l h1 h2 => by omega,
      fun l h1 h2 h3 => vget_replicate_none h1 (by omega), (hsum0 _).symm⟩

/-- A grouping that returns a number. -/
theorem group_ok {ratio : α} {ds : Dataset α} {name : String} {th : α} {doLog : Int → Bool}
    {gs gs' : GlobalSpace α} {n : Int} (h : gs.group ratio ds name th doLog = (.ok n, gs')) :
    ∃ dn, getDistance name = .ok dn ∧ gs'.distanceName = name ∧
      GroupedBy ds (dn.fn ratio) th gs'.locals n := by
  unfold GlobalSpace.group at h
  simp only at h
  split at h
  · simp at h
  · simp at h
  · rename_i dn hdn
    split at h
    · simp at h
    · rename_i hneg
      split at h
      · rename_i locals n' hrun
        simp only [Prod.mk.injEq, Res.ok.injEq] at h
        obtain ⟨rfl, rfl⟩ := h
        exact ⟨dn, hdn, rfl, groupLoop_okInv hneg hrun⟩
      · simp at h
      · simp at h

/-- When grouping completes. -/
theorem group_total {ratio : α} {ds : Dataset α} {name : String} {th : α} {doLog : Int → Bool}
    (gs : GlobalSpace α) {dn : DistName} (hdn : getDistance name = .ok dn) (hlen : -1 ≤ ds.itemLength)
    (hall : ∀ l, 2 ≤ l → l ≤ ds.itemLength →
      (LocalSpace.new ds l >>= fun ls => ls.generateGroups ds (dn.fn ratio) th (doLog l)).Ensures fun _ => True) :
    ∃ n gs', gs.group ratio ds name th doLog = (.ok n, gs') := by
  unfold GlobalSpace.group
  simp only [hdn]
  rw [if_neg (by omega)]
  have : (forInt 2 (ds.itemLength + 1) (List.replicate (ds.itemLength + 1).toNat none, (0 : Int)) (fun i s => do
          let ls ← LocalSpace.new ds i
          let ls ← ls.generateGroups ds (dn.fn ratio) th (doLog i)
          let locals ← vset s.1 i (some ls)
          return (locals, s.2 + ls.getNumberOfGroups))).Ensures fun s => len s.1 = ds.itemLength + 1 := by
    by_cases hle : 2 ≤ ds.itemLength + 1
    · refine forInt_ensures (fun _ (s : List (Option (LocalSpace α)) × Int) => len s.1 = ds.itemLength + 1) hle (by simp; omega) ?_
      rintro j ⟨s1, s2⟩ hj1 hj2 hi
      simp only at hi
      obtain ⟨ls, h1, _⟩ := hall j hj1 (by omega)
      obtain ⟨ls0, h2, h3⟩ := Res.bind_eq_ok.mp h1
      simp only [h2, h3, Res.bind_ok, vset_ok (some ls) (by omega : 0 ≤ j) (by omega : j < len s1), Res.pure_eq,
        Res.ensures_ok, len_set]
      exact hi
    · rw [forInt_of_le (by omega)]
      simp only [Res.ensures_ok, len_replicate]
      omega
  obtain ⟨⟨locals, n⟩, hrun, _⟩ := this
  rw [hrun]
  exact ⟨n, _, rfl⟩

end any

end Onex
