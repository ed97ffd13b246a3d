import Verif.Proofs.Traverse

/-!
# The search over all lengths
-/

namespace Onex
open DataT Spec

variable {ρ : Rounding}

/-- Groups of one length that can be searched: members `M`, representative values `A`. -/
structure LocalOk (ds : Dataset (F ρ)) (l : Int) (ls : LocalSpace (F ρ)) (M : List (List Coord))
    (A : List (List ℝ)) : Prop where
  space : SpaceInv ds l ls M
  cents : CentsOk ds ls.groups A
  lenA : ∀ a ∈ A, a.length = l.toNat
  full : ∀ m ∈ M, m ≠ []
  some : 0 < M.length

theorem SpaceInv.same {ds : Dataset (F ρ)} {l : Int} {ls : LocalSpace (F ρ)} {M : List (List Coord)}
    (h : SpaceInv ds l ls M) {gs : List (Group (F ρ))} (hg : SameUpTo ls.groups gs) :
    SpaceInv ds l { ls with groups := gs } M := by
  refine ⟨h.length, h.subCount, h.mapLen, by rw [← h.card]; exact hg.1, ?_, h.nodup⟩
  intro k h1 h2
  simp only at h1
  have h3 : k < ls.groups.length := by rw [← hg.1]; exact h1
  obtain ⟨x, hx⟩ := hg.2 k h3 h1
  simp only [hx]
  exact (h.inv k h3 h2).recache x

/-- All lengths. -/
structure SearchOk (ds : Dataset (F ρ)) (L : Nat) (locals : List (Option (LocalSpace (F ρ))))
    (MM : Int → List (List Coord)) (AA : Int → List (List ℝ)) : Prop where
  size : len locals = L + 1
  at_ : ∀ l : Int, 2 ≤ l → l ≤ L → ∃ ls, vget locals l = .ok (some ls) ∧ LocalOk ds l ls (MM l) (AA l)
  short : ∀ l : Int, 0 ≤ l → l < 2 → l ≤ L → vget locals l = .ok none

/-- State of the search. -/
structure SInv (ds : Dataset (F ρ)) (L : Nat) (d : Dist (F ρ)) (dom : List ℝ → List ℝ → Prop)
    (W : List ℝ → List ℝ → F ρ) (q : List ℝ)
    (MM : Int → List (List Coord)) (AA : Int → List (List ℝ)) (visited : List Int) (s : SearchState (F ρ)) :
    Prop where
  ok : SearchOk ds L s.locals MM AA
  query : SeriesOk s.query q
  best : (s.bestGroup = none ∧ s.best = F.pinf) ∨ ∃ (l : Int) (k : Nat) (h : k < (AA l).length),
    s.bestGroup = some (l, (k : Int)) ∧ (2 ≤ l ∧ l ≤ L) ∧ s.best = W (AA l)[k] q ∧ lt s.best F.pinf = true
  least : Honest d dom W → ∀ l ∈ visited, ∀ a ∈ AA l, ¬ lt (W a q) s.best = true
  near : ∀ κ, NearHonest κ d dom W → ∀ l ∈ visited, ∀ a ∈ AA l, ¬ lt (scl κ (W a q)) s.best = true
  value : ∀ l ∈ visited, ∀ a ∈ AA l, W a q ≠ F.nan
  first : Honest d dom W → ∀ (l : Int) (k : Nat), s.bestGroup = some (l, (k : Int)) → ∃ later earlier,
    visited = later ++ l :: earlier ∧ (∀ l' ∈ earlier, ∀ a ∈ AA l', lt s.best (W a q) = true) ∧
    ∀ (j : Nat) (hj : j < (AA l).length), j < k → lt s.best (W (AA l)[j] q) = true

theorem not_lt_self_F (x : F ρ) : ¬ lt x x = true := fun h => lt_asymm_F h h

theorem searchStep_spec {ds : Dataset (F ρ)} {L : Nat} {d : Dist (F ρ)} {dom W} (hd : Faithful d dom W)
    {q : List ℝ} {MM AA} {visited : List Int} {s : SearchState (F ρ)}
    (hi : SInv ds L d dom W q MM AA visited s) {l : Int} (h2 : 2 ≤ l) (hL : l ≤ L)
    (hdom : ∀ a : List ℝ, a.length = l.toNat → dom a q) :
    (searchStep ds d s l).Ensures fun s' => SInv ds L d dom W q MM AA (l :: visited) s' ∧
      (s.bestGroup ≠ none → s'.bestGroup ≠ none) ∧
      ((∀ a : List ℝ, a.length = l.toNat → W a q ≠ F.pinf) → s'.bestGroup ≠ none) := by
  obtain ⟨ls, hget, hl⟩ := hi.ok.at_ l h2 hL
  have hdomA : ∀ a ∈ AA l, dom a q := fun a ha => hdom a (hl.lenA a ha)
  have hvalue : ∀ l' ∈ l :: visited, ∀ a ∈ AA l', W a q ≠ F.nan := by
    intro l' hl' a ha
    rcases List.mem_cons.mp hl' with rfl | hl'
    · rcases hd.val _ _ (hdomA a ha) with e | ⟨x, _, e⟩ <;> rw [e] <;> simp
    · exact hi.value l' hl' a ha
  obtain ⟨n, hn, n1, n2, n3, n4, n5⟩ := nearest_faithful hd hdomA hl.cents hi.query s.best
  have hsame := (nearest_shape _ _ _ _ _ _ hn).1
  obtain ⟨hl0, hl1⟩ := vget_lt hget
  obtain ⟨locals', hset⟩ : ∃ x, vset s.locals l (some { ls with groups := n.groups }) = .ok x :=
    ⟨_, vset_ok _ hl0 hl1⟩
  have hlocal : LocalOk ds l { ls with groups := n.groups } (MM l) (AA l) :=
    ⟨hl.space.same hsame, n1, hl.lenA, hl.full, hl.some⟩
  have hok : SearchOk ds L locals' MM AA := by
    refine ⟨?_, ?_, ?_⟩
    · rw [← hi.ok.size]
      simp only [len, vset_len hset]
    · intro l' h1 h2
      rw [vget_vset hset]
      by_cases e : l' = l
      · subst e
        rw [if_pos rfl]
        exact ⟨_, rfl, hlocal⟩
      · rw [if_neg e]
        exact hi.ok.at_ l' h1 h2
    · intro l' h1 h3 h4
      rw [vget_vset hset, if_neg (by omega)]
      exact hi.ok.short l' h1 h3 h4
  have hstep : searchStep ds d s l = .ok (if lt n.best s.best = true then
      { locals := locals', query := n.query, best := n.best, bestGroup := n.bestIdx.map fun k => (l, k) }
      else { s with locals := locals', query := n.query }) := by
    unfold searchStep
    rw [hget, Res.bind_ok]
    simp only [LocalSpace.getBestGroup, hn, Res.bind_ok, Res.pure_eq, hset]
    split <;> rfl
  rw [hstep, Res.ensures_ok]
  have hA0 : 0 < (AA l).length := by
    rw [← hl.cents.1, hl.space.card]
    exact hl.some
  rcases n3 with ⟨m1, m2⟩ | ⟨k, hk, m1, m2, m3⟩
  · rw [m2, if_neg (not_lt_self_F _)]
    refine ⟨⟨hok, n2, hi.best, ?_, ?_, hvalue, ?_⟩, fun h => h, ?_⟩
    rotate_left 2
    · intro hh l' k' hb
      obtain ⟨later, earlier, f1, f2⟩ := hi.first hh l' k' hb
      exact ⟨l :: later, earlier, by rw [f1]; rfl, f2⟩
    rotate_left 2
    · intro κ hh l' hl' a ha
      rcases List.mem_cons.mp hl' with rfl | hl'
      · have := n5 κ hh a ha
        rwa [m2] at this
      · exact hi.near κ hh l' hl' a ha
    rotate_left
    · intro hh l' hl' a ha
      rcases List.mem_cons.mp hl' with rfl | hl'
      · obtain ⟨n', e1, _, _, e4⟩ := nearest_honest hh hdomA hl.cents hi.query s.best
        rw [hn, Res.ok.injEq] at e1
        subst e1
        rcases e4 with ⟨_, e⟩ | ⟨k, hk, e, _⟩
        · exact e _ (List.mem_map_of_mem ha)
        · have : n.bestIdx = some (k : Int) := congrArg Prod.fst e
          rw [m1] at this
          simp at this
      · exact hi.least hh l' hl' a ha
    · intro hfin
      rcases hi.best with ⟨_, b2⟩ | ⟨l', k', _, b1, _⟩
      · exact absurd m1 (n4 hA0 b2 (hfin _ (hl.lenA _ (List.getElem_mem hA0))))
      · simp only [b1]
        simp
  · rw [if_pos m3]
    refine ⟨⟨hok, n2, Or.inr ⟨l, k, hk, by simp only [m1]; rfl, ⟨h2, hL⟩, m2, ?_⟩, ?_, ?_, hvalue, ?_⟩, ?_, ?_⟩
    rotate_left 3
    · intro hh l' k' hb
      simp only [m1, Option.map_some, Option.some.injEq, Prod.mk.injEq, Nat.cast_inj] at hb
      obtain ⟨rfl, rfl⟩ := hb
      refine ⟨[], visited, rfl, ?_, ?_⟩
      · intro l' hl' a ha
        exact lt_of_lt_not_lt m3 (hi.least hh l' hl' a ha) (hi.value l' hl' a ha)
      · intro j hj hjk
        obtain ⟨n', e1, _, _, e4⟩ := nearest_honest hh hdomA hl.cents hi.query s.best
        rw [hn, Res.ok.injEq] at e1
        subst e1
        rcases e4 with ⟨e, _⟩ | ⟨k', hk', e, _, e'⟩
        · have : n.bestIdx = none := congrArg Prod.fst e
          rw [m1] at this
          simp at this
        · have hb : n.best = _ := congrArg Prod.snd e
          have hkk : n.bestIdx = some (k' : Int) := congrArg Prod.fst e
          rw [m1, Option.some.injEq, Nat.cast_inj] at hkk
          subst hkk
          simp only
          rw [hb]
          have := (e' j (by simpa using hj)).2 hjk
          simpa using this
    rotate_left 4
    · intro κ hh l' hl' a ha
      rcases List.mem_cons.mp hl' with rfl | hl'
      · exact n5 κ hh a ha
      · exact fun h => hi.near κ hh l' hl' a ha (lt_trans_F h m3)
    rotate_left 2
    · simp only
      rcases hi.best with ⟨_, b2⟩ | ⟨_, _, _, _, _, _, b⟩
      · rw [← b2]
        exact m3
      · exact lt_trans_F m3 b
    · intro hh l' hl' a ha
      simp only
      rcases List.mem_cons.mp hl' with rfl | hl'
      · obtain ⟨n', e1, _, _, e4⟩ := nearest_honest hh hdomA hl.cents hi.query s.best
        rw [hn, Res.ok.injEq] at e1
        subst e1
        rcases e4 with ⟨e, _⟩ | ⟨k', hk', e, _, e'⟩
        · have : n.bestIdx = none := congrArg Prod.fst e
          rw [m1] at this
          simp at this
        · have hb : n.best = _ := congrArg Prod.snd e
          rw [hb]
          obtain ⟨j, hj, rfl⟩ := List.getElem_of_mem ha
          have := (e' j (by simpa using hj)).1
          simpa using this
      · intro hlt
        exact hi.least hh l' hl' a ha (lt_trans_F hlt m3)
    · intro _
      simp [m1]
    · intro _
      simp [m1]

theorem searchLoop_spec {ds : Dataset (F ρ)} {L : Nat} {d : Dist (F ρ)} {dom W} (hd : Faithful d dom W)
    {q : List ℝ} {MM AA} (hdom : ∀ l : Int, 2 ≤ l → l ≤ L → ∀ a : List ℝ, a.length = l.toNat → dom a q) :
    ∀ (order : List Int), (∀ l ∈ order, 2 ≤ l ∧ l ≤ L) → ∀ (visited : List Int) (s : SearchState (F ρ)),
      SInv ds L d dom W q MM AA visited s →
      (searchLoop ds d order s).Ensures fun s' => SInv ds L d dom W q MM AA (order.reverse ++ visited) s' ∧
        (s.bestGroup ≠ none → s'.bestGroup ≠ none)
  | [], _, visited, s, hi => ⟨s, rfl, by simpa using hi, fun h => h⟩
  | l :: order, ho, visited, s, hi => by
    obtain ⟨h2, hL⟩ := ho l (by simp)
    obtain ⟨s1, e1, i1, i2, _⟩ := searchStep_spec hd hi h2 hL (hdom l h2 hL)
    obtain ⟨s2, e2, j1, j2⟩ := searchLoop_spec hd hdom order (fun l hl => ho l (by simp [hl])) (l :: visited) s1 i1
    refine ⟨s2, ?_, ?_, fun h => j2 (i2 h)⟩
    · unfold searchLoop
      rw [e1]
      exact e2
    · simpa using j1

/-- As `globalMatch_spec` below; the group that answers is the one the search over the representatives chose. -/
theorem globalMatch_group {ds : Dataset (F ρ)} {L : Nat} {R : List (List ℝ)} (hR : HoldsReal ds L R) {ratio : ℝ}
    (junk : F ρ) (hfit : ∀ l ≤ L, RatioOk ρ ratio l) {gs : GlobalSpace (F ρ)} {MM AA}
    (hok : SearchOk ds L gs.locals MM AA) {q : List ℝ} (hq2 : 2 ≤ q.length) (hqL : q.length ≤ L)
    {query : Series (F ρ)} (hq : SeriesOk query q) :
    ∃ (l : Int) (c : Coord) (gs' : GlobalSpace (F ρ)) (order : List Int) (k : Nat) (hM : k < (MM l).length)
        (hA : k < (AA l).length),
      gs.getBestMatch junk (F.fin ratio) ds query =
        .ok ({ ts := subView ds l c, dist := wrd ρ ratio q (subVals R l c) }, gs') ∧
      (2 ≤ l ∧ l ≤ L) ∧ IsSub ds.itemCount ds.itemLength l c ∧ wrd ρ ratio q (subVals R l c) ≠ F.pinf ∧
      SearchOk ds L gs'.locals MM AA ∧ gs'.distanceName = gs.distanceName ∧
      generateTraverseOrder (F.fin ratio : F ρ) q.length L = .ok order ∧ c ∈ (MM l)[k] ∧
      ((Honest (cascadeDistance junk (F.fin ratio)) (wrdDom ρ ratio) (wrd ρ ratio) →
        (∀ c' ∈ (MM l)[k], ¬ lt (wrd ρ ratio q (subVals R l c')) (wrd ρ ratio q (subVals R l c)) = true) ∧
        (∀ l' ∈ order, ∀ a ∈ AA l', ¬ lt (wrd ρ ratio a q) (wrd ρ ratio (AA l)[k] q) = true) ∧
        ∃ pre post, (MM l)[k] = pre ++ c :: post ∧
          ∀ c' ∈ pre, lt (wrd ρ ratio q (subVals R l c)) (wrd ρ ratio q (subVals R l c')) = true) ∧
      ∃ s, searchLoop ds (cascadeDistance junk (F.fin ratio)) order
          { locals := gs.locals, query := query, best := DataT.inf, bestGroup := none } = .ok s ∧
        s.bestGroup = some (l, (k : Int)) ∧
        (Honest (cascadeDistance junk (F.fin ratio)) (wrdDom ρ ratio) (wrd ρ ratio) → ∃ earlier later,
          order = earlier ++ l :: later ∧
          (∀ l' ∈ earlier, ∀ a ∈ AA l', lt (wrd ρ ratio (AA l)[k] q) (wrd ρ ratio a q) = true) ∧
          ∀ (j : Nat) (hj : j < (AA l).length), j < k →
            lt (wrd ρ ratio (AA l)[k] q) (wrd ρ ratio (AA l)[j] q) = true) ∧
        ∀ κ, NearHonest κ (cascadeDistance junk (F.fin ratio)) (wrdDom ρ ratio) (wrd ρ ratio) →
          (∀ c' ∈ (MM l)[k], ¬ lt (scl κ (wrd ρ ratio q (subVals R l c'))) (wrd ρ ratio q (subVals R l c)) = true) ∧
          ∀ l' ∈ order, ∀ a ∈ AA l', ¬ lt (scl κ (wrd ρ ratio a q)) (wrd ρ ratio (AA l)[k] q) = true) := by
  have hd := faithful_cascade junk ratio
  obtain ⟨order, o1, ⟨t, o2⟩, _, low, high, b1, b2, b3, b4, om, _⟩ := traverse_spec (ρ := ρ) hfit hq2 hqL
  have hord : ∀ l ∈ order, 2 ≤ l ∧ l ≤ (L : Int) := by
    intro l hl
    have := (om l).mp hl
    omega
  have hdom : ∀ l : Int, 2 ≤ l → l ≤ L → ∀ a : List ℝ, a.length = l.toNat → wrdDom ρ ratio a q := by
    intro l h1 h2 a ha
    exact ⟨hfit _ (by omega), by omega, hq2⟩
  have hqlen : query.length = (q.length : Int) := by
    unfold Series.length
    rw [hq.vals]
    simp [len]
  -- first step
  have hi0 : SInv ds L (cascadeDistance junk (F.fin ratio)) (wrdDom ρ ratio) (wrd ρ ratio) q MM AA []
      { locals := gs.locals, query := query, best := DataT.inf, bestGroup := none } :=
    ⟨hok, hq, Or.inl ⟨rfl, rfl⟩, by simp, by simp, by simp, by simp⟩
  have hrun : (searchLoop ds (cascadeDistance junk (F.fin ratio)) order
      { locals := gs.locals, query := query, best := DataT.inf, bestGroup := none }).Ensures fun s' =>
      SInv ds L (cascadeDistance junk (F.fin ratio)) (wrdDom ρ ratio) (wrd ρ ratio) q MM AA order.reverse s' ∧
        s'.bestGroup ≠ none := by
    subst o2
    obtain ⟨h2, hL⟩ := hord q.length (by simp)
    obtain ⟨s1, e1, i1, _, i3⟩ := searchStep_spec hd hi0 h2 hL (hdom _ h2 hL)
    obtain ⟨s2, e2, j1, j2⟩ := searchLoop_spec hd hdom t (fun l hl => hord l (by simp [hl])) _ s1 i1
    refine ⟨s2, ?_, by simpa using j1, j2 (i3 ?_)⟩
    · unfold searchLoop
      rw [e1]
      exact e2
    · intro a ha
      rw [Ne, wrd_finite_iff _ _ _ (by omega) hq2]
      omega
  obtain ⟨s, hs, hi, hsome⟩ := hrun
  rcases hi.best with ⟨b, _⟩ | ⟨l, k, hk, g1, ⟨g2, gL⟩, g3, g4⟩
  · exact absurd b hsome
  obtain ⟨ls, hget, hl⟩ := hi.ok.at_ l g2 gL
  have hkg : k < ls.groups.length := by rw [hl.cents.1]; exact hk
  have hkM : k < (MM l).length := by rw [← hl.space.card]; exact hkg
  have hinv := hl.space.inv k hkg hkM
  have hmem := getMembers_spec (by omega : 1 ≤ l) hl.space.mapLen hinv
  let sv : View → List ℝ := fun v => subVals R l (v.index, v.start)
  have hsvc : ∀ c, sv (subView ds l c) = subVals R l c := fun c => rfl
  have hsv : ∀ v ∈ (MM l)[k].map (subView ds l), ds.resolve v = .ok (fins (sv v)) ∧ wrdDom ρ ratio q (sv v) := by
    intro v hv
    obtain ⟨c, hc, rfl⟩ := List.mem_map.mp hv
    obtain ⟨r1, r2⟩ := resolve_sub hR (by omega) (hinv.subs c hc)
    rw [hsvc]
    exact ⟨r1, hfit _ (by omega), hq2, by omega⟩
  have hAlen : ((AA l)[k]).length = l.toNat := hl.lenA _ (List.getElem_mem hk)
  have hfinA : wrd ρ ratio (AA l)[k] q ≠ F.pinf := by
    intro e
    rw [g3, e, lt_iff] at g4
    exact g4
  have hfinAll : ∀ c ∈ (MM l)[k], wrd ρ ratio q (subVals R l c) ≠ F.pinf := by
    intro c hc
    have hclen := (resolve_sub hR (by omega) (hinv.subs c hc)).2
    rw [wrd_comm]
    rw [Ne, wrd_finite_iff _ _ _ (by omega) hq2] at hfinA ⊢
    rw [hAlen] at hfinA
    rw [hclen]
    exact hfinA
  obtain ⟨c0, m, hm⟩ := List.exists_cons_of_ne_nil (hl.full _ (List.getElem_mem hkM))
  obtain ⟨v, v1, v2, v3, v4, v5⟩ := groupBestMatch_spec hd hmem sv hsv hi.query
    (Or.inl ⟨subView ds l c0, by rw [hm]; rfl, by rw [hsvc]; exact hfinAll c0 (by rw [hm]; simp)⟩)
  obtain ⟨c, hc, rfl⟩ := List.mem_map.mp v1
  rw [hsvc] at v2 v3
  refine ⟨l, c, { gs with locals := s.locals }, order, k, hkM, hk, ?_, ⟨g2, gL⟩, hinv.subs c hc, v3, hi.ok, rfl, o1, hc, ?_, s, hs, g1, ?_, ?_⟩
  · unfold GlobalSpace.getBestMatch
    rw [if_neg (by rw [hqlen]; omega)]
    simp only
    have hlen : len gs.locals - 1 = (L : Int) := by rw [hok.size]; omega
    rw [hqlen, hlen, o1, Res.bind_ok, hs, Res.bind_ok]
    simp only [g1]
    rw [hget, Res.bind_ok]
    simp only
    rw [vget_nat hkg, Res.bind_ok, v2, Res.bind_ok]
    rfl
  · intro hh
    refine ⟨?_, ?_, ?_⟩
    · intro c' hc'
      have := (v4 hh).1 (subView ds l c') (List.mem_map_of_mem hc')
      rw [hsvc, hsvc] at this
      exact this
    · intro l' hl' a ha
      rw [← g3]
      exact hi.least hh l' (by simpa using hl') a ha
    · obtain ⟨pre, post, f1, f2⟩ := (v4 hh).2
      obtain ⟨pre', rest, k1, rfl, k2⟩ := List.map_eq_append_iff.mp f1
      obtain ⟨c2, post', rfl, k3, rfl⟩ := List.map_eq_cons_iff.mp k2
      have hcc : c2 = c := by
        simp only [subView, View.mk.injEq] at k3
        exact Prod.ext k3.2.2.1 k3.2.2.2.1
      subst hcc
      refine ⟨pre', post', k1, fun c' hc' => ?_⟩
      have := f2 (subView ds l c') (List.mem_map_of_mem hc')
      rw [hsvc, hsvc] at this
      exact this
  · intro hh
    obtain ⟨later, earlier, f1, f2, f3⟩ := hi.first hh l k g1
    rw [g3] at f2 f3
    refine ⟨earlier.reverse, later.reverse, ?_, fun l' hl' => f2 l' (by simpa using hl'), f3⟩
    rw [← List.reverse_reverse order, f1]
    simp
  · intro κ hh
    constructor
    · intro c' hc'
      have := v5 κ hh (subView ds l c') (List.mem_map_of_mem hc')
      rw [hsvc, hsvc] at this
      exact this
    · intro l' hl' a ha
      rw [← g3]
      exact hi.near κ hh l' (by simpa using hl') a ha

/-- The whole search, for every rounding: it answers with a sub-series of the dataset and its distance, and
keeps the groups searchable. With an honest distance the answer is the first of the best members of the
group whose representative is best. -/
theorem globalMatch_spec {ds : Dataset (F ρ)} {L : Nat} {R : List (List ℝ)} (hR : HoldsReal ds L R) {ratio : ℝ}
    (junk : F ρ) (hfit : ∀ l ≤ L, RatioOk ρ ratio l) {gs : GlobalSpace (F ρ)} {MM AA}
    (hok : SearchOk ds L gs.locals MM AA) {q : List ℝ} (hq2 : 2 ≤ q.length) (hqL : q.length ≤ L)
    {query : Series (F ρ)} (hq : SeriesOk query q) :
    ∃ (l : Int) (c : Coord) (gs' : GlobalSpace (F ρ)) (order : List Int) (k : Nat) (hM : k < (MM l).length)
        (hA : k < (AA l).length),
      gs.getBestMatch junk (F.fin ratio) ds query =
        .ok ({ ts := subView ds l c, dist := wrd ρ ratio q (subVals R l c) }, gs') ∧
      (2 ≤ l ∧ l ≤ L) ∧ IsSub ds.itemCount ds.itemLength l c ∧ wrd ρ ratio q (subVals R l c) ≠ F.pinf ∧
      SearchOk ds L gs'.locals MM AA ∧ gs'.distanceName = gs.distanceName ∧
      generateTraverseOrder (F.fin ratio : F ρ) q.length L = .ok order ∧ c ∈ (MM l)[k] ∧
      (Honest (cascadeDistance junk (F.fin ratio)) (wrdDom ρ ratio) (wrd ρ ratio) →
        (∀ c' ∈ (MM l)[k], ¬ lt (wrd ρ ratio q (subVals R l c')) (wrd ρ ratio q (subVals R l c)) = true) ∧
        (∀ l' ∈ order, ∀ a ∈ AA l', ¬ lt (wrd ρ ratio a q) (wrd ρ ratio (AA l)[k] q) = true) ∧
        ∃ pre post, (MM l)[k] = pre ++ c :: post ∧
          ∀ c' ∈ pre, lt (wrd ρ ratio q (subVals R l c)) (wrd ρ ratio q (subVals R l c')) = true) := by
  obtain ⟨l, c, gs', order, k, hM, hA, e1, e2, e3, e4, e5, e6, e7, e8, e9, _⟩ := globalMatch_group hR junk hfit hok hq2
    hqL hq
  exact ⟨l, c, gs', order, k, hM, hA, e1, e2, e3, e4, e5, e6, e7, e8, e9⟩

end Onex
