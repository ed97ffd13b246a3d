import Verif.Proofs.Asked
import Verif.Spec.GroupFile

/-!
# Searches one after the other

A search changes nothing but the caches, and leaves right ones. So the groups stay related to those of the start.
-/

namespace Onex
open DataT Spec

variable {α : Type} [DataT α]

/-! ## A search changes only caches -/

/-- The same group up to the cache. -/
def GSame (g g' : Group α) : Prop := ∃ c, g' = recache g c

/-- The same groups of one length up to caches. -/
structure LSame (ls ls' : LocalSpace α) : Prop where
  length : ls.length = ls'.length
  subCount : ls.subCount = ls'.subCount
  memberMap : ls.memberMap = ls'.memberMap
  groups : List.Forall₂ GSame ls.groups ls'.groups

/-- The same groups of all lengths up to caches. -/
def TSame : List (Option (LocalSpace α)) → List (Option (LocalSpace α)) → Prop :=
  List.Forall₂ (Option.Rel LSame)

theorem forall₂_trans {β : Type} {R : β → β → Prop} (ht : ∀ x y z, R x y → R y z → R x z) :
    ∀ {a b c : List β}, List.Forall₂ R a b → List.Forall₂ R b c → List.Forall₂ R a c
  | _, _, _, .nil, .nil => .nil
  | _, _, _, .cons h t, .cons h' t' => .cons (ht _ _ _ h h') (forall₂_trans ht t t')

/-- Four lists in a row. -/
theorem forall₂_comb {β : Type} {A B C D : β → β → Prop} (hh : ∀ b t b' t', A b t → B b b' → C b' t' → D b t') :
    ∀ {l₁ l₂ l₃ l₄ : List β}, List.Forall₂ A l₁ l₂ → List.Forall₂ B l₁ l₃ → List.Forall₂ C l₃ l₄ → List.Forall₂ D l₁ l₄
  | _, _, _, _, .nil, .nil, .nil => .nil
  | _, _, _, _, .cons h t, .cons h' t', .cons h'' t'' => .cons (hh _ _ _ _ h h' h'') (forall₂_comb hh t t' t'')

omit [DataT α] in
theorem GSame.refl (g : Group α) : GSame g g := ⟨g.centroid.cache, rfl⟩

omit [DataT α] in
theorem GSame.trans {g h k : Group α} (a : GSame g h) (b : GSame h k) : GSame g k := by
  obtain ⟨c, rfl⟩ := a
  obtain ⟨d, rfl⟩ := b
  exact ⟨d, rfl⟩

omit [DataT α] in
theorem LSame.trans {a b c : LocalSpace α} (h : LSame a b) (k : LSame b c) : LSame a c :=
  ⟨h.length.trans k.length, h.subCount.trans k.subCount, h.memberMap.trans k.memberMap,
    forall₂_trans (R := GSame) (fun _ _ _ p q => p.trans q) h.groups k.groups⟩

omit [DataT α] in
theorem LSame.refl (a : LocalSpace α) : LSame a a :=
  ⟨rfl, rfl, rfl, forall₂_self fun g _ => GSame.refl g⟩

omit [DataT α] in
theorem orel_trans {x y z : Option (LocalSpace α)} (h : Option.Rel LSame x y) (k : Option.Rel LSame y z) :
    Option.Rel LSame x z := by
  cases h with
  | none => exact k
  | some h =>
    cases k with
    | some k => exact .some (h.trans k)

omit [DataT α] in
theorem orel_refl (x : Option (LocalSpace α)) : Option.Rel LSame x x := by
  cases x with
  | none => exact .none
  | some x => exact .some (LSame.refl x)

omit [DataT α] in
theorem TSame.refl (l : List (Option (LocalSpace α))) : TSame l l := forall₂_self fun x _ => orel_refl x

omit [DataT α] in
theorem SameUpTo.forall₂ {gs gs' : List (Group α)} (h : SameUpTo gs gs') : List.Forall₂ GSame gs gs' := by
  rw [List.forall₂_iff_get]
  exact ⟨h.1.symm, fun k h1 h2 => h.2 k h1 h2⟩

omit [DataT α] in
theorem tsame_set {l l' : List (Option (LocalSpace α))} {i : Int} {ls ls' : LocalSpace α}
    (hg : vget l i = .ok (some ls)) (h : LSame ls ls') (hs : vset l i (some ls') = .ok l') : TSame l l' := by
  rw [(vset_eq_ok.mp hs).2]
  have hg := (vget_eq_ok.mp hg).2
  obtain ⟨hi, hg⟩ := List.getElem?_eq_some_iff.mp hg
  unfold TSame
  rw [List.forall₂_iff_get]
  refine ⟨by simp, fun k h1 h2 => ?_⟩
  simp only [List.get_eq_getElem, List.getElem_set]
  split
  · rename_i e
    subst e
    rw [hg]
    exact .some h
  · exact orel_refl _

theorem searchLoop_tsame {ds : Dataset α} {d : Dist α} : ∀ (order : List Int) {s s' : SearchState α},
    searchLoop ds d order s = .ok s' → TSame s.locals s'.locals
  | [], s, s', h => by
    simp only [searchLoop, Res.ok.injEq] at h
    exact h ▸ TSame.refl _
  | i :: order, s, s', h => by
    unfold searchLoop at h
    obtain ⟨s1, h1, h⟩ := Res.bind_eq_ok.mp h
    refine forall₂_trans (fun _ _ _ => orel_trans) ?_ (searchLoop_tsame order h)
    unfold searchStep at h1
    obtain ⟨o, ho, h1⟩ := Res.bind_eq_ok.mp h1
    cases o with
    | none => cases h1
    | some ls =>
      obtain ⟨⟨⟨k, v⟩, ls1, q⟩, h2, h1⟩ := Res.bind_eq_ok.mp h1
      unfold LocalSpace.getBestGroup at h2
      obtain ⟨t, h4, h2⟩ := Res.bind_eq_ok.mp h2
      simp only [Res.pure_eq, Res.ok.injEq, Prod.mk.injEq] at h2
      obtain ⟨_, rfl, _⟩ := h2
      obtain ⟨l1, h3, h5⟩ := Res.bind_eq_ok.mp h1
      have e : s1.locals = l1 := by
        clear h1
        split at h5 <;> cases h5 <;> rfl
      rw [e]
      exact tsame_set (ls' := { ls with groups := t.groups }) ho ⟨rfl, rfl, rfl, (nearest_shape _ _ _ _ _ _ h4).1.forall₂⟩ h3

theorem globalMatch_tsame {junk ratio : α} {ds : Dataset α} {gs gs' : GlobalSpace α} {q : Series α} {c : Cand α}
    (h : gs.getBestMatch junk ratio ds q = .ok (c, gs')) : TSame gs.locals gs'.locals := by
  unfold GlobalSpace.getBestMatch at h
  split at h
  · cases h
  · obtain ⟨order, _, h⟩ := Res.bind_eq_ok.mp h
    obtain ⟨s, h1, h⟩ := Res.bind_eq_ok.mp h
    have := searchLoop_tsame order h1
    split at h
    · cases h
    · obtain ⟨o, _, h⟩ := Res.bind_eq_ok.mp h
      split at h
      · cases h
      · obtain ⟨g, _, h⟩ := Res.bind_eq_ok.mp h
        obtain ⟨c', _, h⟩ := Res.bind_eq_ok.mp h
        cases h
        exact this

/-! ## One search after another -/

theorem GRel.next {ds : Dataset α} {b t b' t' : Group α} (h1 : GRel ds b t) (h2 : GSame b b') (h3 : GRel ds b' t') :
    GRel ds b t' := by
  obtain ⟨c, rfl⟩ := h2
  obtain ⟨⟨d, rfl⟩, h3⟩ := h3
  refine ⟨⟨d, rfl⟩, fun x hx => ?_⟩
  have p := h1.fit x hx
  have q := h3 x hx
  exact ⟨rfl, rfl, p.left, q.right, p.pos⟩

theorem TRel.next {ds : Dataset α} {b t b' t' : List (Option (LocalSpace α))} (h1 : TRel ds b t) (h2 : TSame b b')
    (h3 : TRel ds b' t') : TRel ds b t' := by
  refine forall₂_comb ?_ h1 h2 h3
  intro x y z w a1 a2 a3
  cases a1 with
  | none =>
    cases a2
    exact a3
  | some a1 =>
    cases a2 with
    | some a2 =>
      cases a3 with
      | some a3 =>
        exact .some ⟨a2.length.trans a3.length, a2.subCount.trans a3.subCount, a2.memberMap.trans a3.memberMap,
          forall₂_comb (fun _ _ _ _ => GRel.next) a1.groups a2.groups a3.groups⟩

/-- The set with the same data and threshold, and the same groups with right caches. -/
structure CRel (s t : GSet α) : Prop where
  ds : t.ds = s.ds
  groups : Option.Rel (fun (gs gs' : GlobalSpace α) => TRel s.ds gs.locals gs'.locals) s.groups t.groups

theorem CRel.match_ {s t : GSet α} (h : CRel s t) (hw : Windows s.ds) {env env' : Env α} (he : env'.ratio = env.ratio)
    (hb : BandNN env.ratio) (x : List α) :
    (t.getBestMatch env' (Series.mk' x)).1 = (s.getBestMatch env (Series.mk' x)).1 ∧
      CRel s (t.getBestMatch env' (Series.mk' x)).2 := by
  obtain ⟨hds, hg⟩ := h
  obtain ⟨sd, sg, sth⟩ := s
  obtain ⟨td, tg, tth⟩ := t
  simp only at hds hg hw
  subst hds
  cases hg with
  | none => exact ⟨rfl, rfl, .none⟩
  | some hg =>
    rename_i gs gs'
    simp only [GSet.getBestMatch, he]
    by_cases hx : x.length ≤ 1
    · have e : ∀ (junk : α) (g : GlobalSpace α), g.getBestMatch junk env.ratio td (Series.mk' x) =
          .throw "Length of query must be larger than 1" := by
        intro junk g
        unfold GlobalSpace.getBestMatch
        rw [if_pos (by simp only [Series.length, Series.mk', len]; omega)]
      rw [e, e]
      exact ⟨rfl, rfl, .some hg⟩
    · have key := RR.globalMatch hb env.junk env'.junk hg hw (srel_mk (x := x) (by omega))
      cases h1 : gs.getBestMatch env.junk env.ratio td (Series.mk' x) with
      | throw e =>
        rw [h1] at key
        generalize h2 : gs'.getBestMatch env'.junk env.ratio td (Series.mk' x) = z at key ⊢
        cases key
        exact ⟨rfl, rfl, .some hg⟩
      | ub e =>
        rw [h1] at key
        generalize h2 : gs'.getBestMatch env'.junk env.ratio td (Series.mk' x) = z at key ⊢
        cases key
        exact ⟨rfl, rfl, .some hg⟩
      | ok p =>
        rw [h1] at key
        cases h2 : gs'.getBestMatch env'.junk env.ratio td (Series.mk' x) with
        | throw e =>
          rw [h2] at key
          cases key
        | ub e =>
          rw [h2] at key
          cases key
        | ok p' =>
          rw [h2] at key
          cases key with
          | ok k =>
            obtain ⟨c, g1⟩ := p
            obtain ⟨c', g1'⟩ := p'
            simp only at k
            simp only
            refine ⟨by rw [k.1], rfl, .some ?_⟩
            exact TRel.next hg (globalMatch_tsame h1) k.2

/-! ## Loaded groups -/

/-- As a group is after loading. -/
def LFit (g : Group α) : Prop := g.centroid.cache = none ∧
  ∃ vals, g.centroid.src = .own vals ∧ vals.length = g.memberLength.toNat

theorem readCentroid_length (io : NumIO α) : ∀ (k : Nat) (s : Stream), (readCentroid io k s).1.length = k
  | 0, _ => rfl
  | k + 1, s => by
    unfold readCentroid
    simp only [List.length_cons]
    rw [readCentroid_length io k]

theorem loadGroup_lfit {io : NumIO α} {i l c : Int} {mm mm' : List Membership} {s s' : Stream} {g : Group α}
    (h : (Group.new i l c : Group α).loadGroup io mm s = .ok (g, mm', s')) : LFit g := by
  unfold Group.loadGroup at h
  rcases hc : readCentroid io (Group.new i l c : Group α).memberLength.toNat s with ⟨vals, s1⟩
  have hlen := readCentroid_length io (Group.new i l c : Group α).memberLength.toNat s
  rw [hc] at hlen h
  simp only at h hlen
  split at h
  · cases h
  · rename_i cnt _
    obtain ⟨st, h1, h⟩ := Res.bind_eq_ok.mp h
    cases h
    rcases Int.le_total cnt 0 with hn | hn
    · rw [forInt_of_le hn] at h1
      cases h1
      exact ⟨rfl, vals, rfl, hlen⟩
    · refine forInt_okInv (fun _ (st : LoadState α) => LFit st.group) hn ⟨rfl, vals, rfl, hlen⟩ ?_ h1
      intro j t t' _ _ hi e
      split at e
      · obtain ⟨⟨g', m⟩, e1, e⟩ := Res.bind_eq_ok.mp e
        cases e
        unfold Group.addMember at e1
        obtain ⟨m', _, e1⟩ := Res.bind_eq_ok.mp e1
        cases e1
        exact hi
      · cases e

theorem localLoad_lfit {io : NumIO α} {ls ls' : LocalSpace α} {s s' : Stream} {n : Int}
    (h : ls.loadGroups io s = .ok (n, ls', s')) : ∀ g ∈ ls'.groups, LFit g := by
  unfold LocalSpace.loadGroups at h
  simp only at h
  split at h
  · cases h
  · obtain ⟨⟨l1, s1⟩, h1, h⟩ := Res.bind_eq_ok.mp h
    cases h
    have h0 : ∀ g ∈ ({ ls with groups := [] } : LocalSpace α).groups, LFit g := by
      intro g hg
      cases hg
    rcases Int.le_total (toUnsigned n) 0 with hn | hn
    · rw [forInt_of_le hn] at h1
      cases h1
      exact h0
    · refine forInt_okInv (s' := (l1, s1)) (fun _ (st : LocalSpace α × Stream) => ∀ g ∈ st.1.groups, LFit g) hn h0 ?_ h1
      intro j t t' _ _ hi e
      obtain ⟨⟨g, mm, s2⟩, e1, e⟩ := Res.bind_eq_ok.mp e
      cases e
      intro y hy
      rcases List.mem_append.mp hy with hy | hy
      · exact hi y hy
      · rw [List.mem_singleton] at hy
        subst hy
        exact loadGroup_lfit e1

theorem globalLoad_lfit {io : NumIO α} {ds : Dataset α} {gs gs' : GlobalSpace α} {s : Stream} {n : Int}
    (h : gs.loadGroups io ds s = (.ok n, gs')) : ∀ ls, some ls ∈ gs'.locals → ∀ g ∈ ls.groups, LFit g := by
  unfold GlobalSpace.loadGroups at h
  simp only at h
  split at h
  · simp at h
  · simp at h
  · split at h
    · simp at h
    · split at h
      · rename_i lf lt _ _
        split at h
        · rename_i n' locals s' hrun
          simp only [Prod.mk.injEq] at h
          obtain ⟨_, rfl⟩ := h
          simp only
          have h0 : ∀ ls, some ls ∈ (List.replicate (ds.itemLength + 1).toNat none : List (Option (LocalSpace α))) →
              ∀ g ∈ ls.groups, LFit g := by
            intro ls hls
            exact absurd (List.eq_of_mem_replicate hls) (by simp)
          rcases Int.le_total (toUnsigned lt) (toUnsigned lf) with hn | hn
          · rw [forInt_of_le hn] at hrun
            cases hrun
            exact h0
          · refine forInt_okInv (s' := (n', locals, s'))
              (fun _ (st : Int × List (Option (LocalSpace α)) × Stream) => ∀ ls, some ls ∈ st.2.1 → ∀ g ∈ ls.groups, LFit g)
              hn h0 ?_ hrun
            intro j t t' _ _ hi e
            obtain ⟨l0, _, e⟩ := Res.bind_eq_ok.mp e
            obtain ⟨⟨m, l1, s2⟩, e1, e⟩ := Res.bind_eq_ok.mp e
            obtain ⟨l2, e2, e⟩ := Res.bind_eq_ok.mp e
            cases e
            intro ls hls
            rcases mem_of_vset e2 hls with hls | hls
            · exact hi ls hls
            · cases hls
              exact localLoad_lfit e1
        · simp at h
        · simp at h
      · simp at h

omit [DataT α] in
theorem LFit.fit {ds : Dataset α} {g : Group α} (h : LFit g) (hl : 1 ≤ g.memberLength) : GFit ds g := by
  obtain ⟨h1, vals, h2, h3⟩ := h
  refine ⟨h1, fun x hx => ?_⟩
  unfold Cent.srcVals at hx
  rw [h2] at hx
  cases hx
  omega

end Onex
