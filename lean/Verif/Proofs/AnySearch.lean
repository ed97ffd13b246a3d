import Verif.Proofs.AnyGroup
import Verif.Proofs.MatchState

/-!
# Searching groups of data of any values
-/

namespace Onex
open DataT Spec

variable {ρ : Rounding}

/-- Groups of one length that can be searched, whatever the values. -/
structure LocalAny (ds : Dataset (F ρ)) (l : Int) (ls : LocalSpace (F ρ)) (M : List (List Coord)) : Prop where
  space : SpaceInv ds l ls M
  cents : ∀ g ∈ ls.groups, CentFit ds l.toNat g
  full : ∀ m ∈ M, m ≠ []

/-- All lengths. -/
structure SearchAny (ds : Dataset (F ρ)) (L : Nat) (locals : List (Option (LocalSpace (F ρ)))) : Prop where
  size : len locals = L + 1
  at_ : ∀ l : Int, 2 ≤ l → l ≤ L → ∃ ls M, vget locals l = .ok (some ls) ∧ LocalAny ds l ls M

/-- State of the search for a query of `n` values. -/
structure AInv (ds : Dataset (F ρ)) (L n : Nat) (vals : List (F ρ)) (s : SearchState (F ρ)) : Prop where
  ok : SearchAny ds L s.locals
  query : Whole s.query n
  vals : s.query.vals = vals
  best : ∀ l k, s.bestGroup = some (l, k) → (2 ≤ l ∧ l ≤ L) ∧
    ∃ ls, vget s.locals l = .ok (some ls) ∧ 0 ≤ k ∧ k < len ls.groups

theorem searchStep_any {ds : Dataset (F ρ)} {L n : Nat} {d : Dist (F ρ)} {vals : List (F ρ)} {s : SearchState (F ρ)}
    (hi : AInv ds L n vals s) {l : Int} (h2 : 2 ≤ l) (hL : l ≤ L) (hd : DistDefined d l.toNat n) :
    (searchStep ds d s l).Ensures (AInv ds L n vals) := by
  obtain ⟨ls, M, hget, hl⟩ := hi.ok.at_ l h2 hL
  obtain ⟨t, hn, n1, n2, n3, n4⟩ := nearest_any hd hl.cents hi.query s.best
  obtain ⟨hsame, hidx⟩ := nearest_shape _ _ _ _ _ _ hn
  obtain ⟨hl0, hl1⟩ := vget_lt hget
  obtain ⟨locals', hset⟩ : ∃ x, vset s.locals l (some { ls with groups := t.groups }) = .ok x :=
    ⟨_, vset_ok _ hl0 hl1⟩
  have hok : SearchAny ds L locals' := by
    refine ⟨?_, ?_⟩
    · rw [← hi.ok.size]
      simp only [len, vset_len hset]
    · intro l' h1 h2
      rw [vget_vset hset]
      by_cases e : l' = l
      · subst e
        rw [if_pos rfl]
        exact ⟨_, M, rfl, hl.space.same hsame, n1, hl.full⟩
      · rw [if_neg e]
        exact hi.ok.at_ l' h1 h2
  have hlen : len t.groups = len ls.groups := by simp only [len, hsame.1]
  have hold : ∀ l' k', s.bestGroup = some (l', k') → (2 ≤ l' ∧ l' ≤ L) ∧
      ∃ ls, vget locals' l' = .ok (some ls) ∧ 0 ≤ k' ∧ k' < len ls.groups := by
    intro l' k' hb
    obtain ⟨b1, ls', b2, b3, b4⟩ := hi.best l' k' hb
    refine ⟨b1, ?_⟩
    rw [vget_vset hset]
    by_cases e : l' = l
    · subst e
      rw [if_pos rfl]
      rw [hget] at b2
      simp only [Res.ok.injEq, Option.some.injEq] at b2
      subst b2
      exact ⟨_, rfl, b3, by simp only [hlen]; exact b4⟩
    · rw [if_neg e]
      exact ⟨ls', b2, b3, b4⟩
  unfold searchStep
  rw [hget, Res.bind_ok]
  simp only [LocalSpace.getBestGroup, hn, Res.bind_ok, Res.pure_eq, hset]
  split
  · refine ⟨_, rfl, hok, n3, n2.trans hi.vals, ?_⟩
    intro l' k' hb
    simp only at hb
    cases hbi : t.bestIdx with
    | none => rw [hbi] at hb; simp at hb
    | some k =>
      rw [hbi] at hb
      simp only [Option.map_some, Option.some.injEq, Prod.mk.injEq] at hb
      obtain ⟨rfl, rfl⟩ := hb
      refine ⟨⟨h2, hL⟩, { ls with groups := t.groups }, ?_, (hidx k hbi).1, by simp only [hlen]; exact (hidx k hbi).2⟩
      rw [vget_vset hset, if_pos rfl]
  · exact ⟨_, rfl, hok, n3, n2.trans hi.vals, hold⟩

theorem searchLoop_any {ds : Dataset (F ρ)} {L n : Nat} {d : Dist (F ρ)} {vals : List (F ρ)}
    (hd : ∀ l : Int, 2 ≤ l → l ≤ L → DistDefined d l.toNat n) :
    ∀ (order : List Int), (∀ l ∈ order, 2 ≤ l ∧ l ≤ L) → ∀ s : SearchState (F ρ), AInv ds L n vals s →
      (searchLoop ds d order s).Ensures (AInv ds L n vals)
  | [], _, s, hi => ⟨s, rfl, hi⟩
  | l :: order, ho, s, hi => by
    obtain ⟨h2, hL⟩ := ho l (by simp)
    unfold searchLoop
    exact Res.Ensures.bind (searchStep_any hi h2 hL (hd l h2 hL))
      (fun s' hs' => searchLoop_any hd order (fun l hl => ho l (by simp [hl])) s' hs')

/-- The scan over the members of a group always ends, with the given coordinate or that of a member. -/
theorem bestMatchLoop_any {d : Dist (F ρ)} {n m : Nat} (hd : DistDefined d n m) {ds : Dataset (F ρ)}
    {mm : List Membership} {g : Group (F ρ)} :
    ∀ (fuel : Nat) (cur : Coord) (vs : List View) (best : F ρ) (bestM : Coord) (query : Series (F ρ)),
      g.membersLoop ds mm fuel cur = .ok vs →
      (∀ v ∈ vs, ∃ x, ds.resolve v = .ok x ∧ x.length = m) → Whole query n →
      (g.bestMatchLoop ds mm d fuel cur best bestM query).Ensures fun p => p.2.1 = bestM ∨
        ∃ v ∈ vs, ds.getTimeSeries p.2.1.1 p.2.1.2 (p.2.1.2 + g.memberLength) = .ok v := by
  intro fuel
  induction fuel with
  | zero =>
    intro cur vs best bestM query hvs _ hq
    unfold Group.membersLoop at hvs
    split at hvs
    · rename_i h
      cases hvs
      exact ⟨(best, bestM, query), by simp [Group.bestMatchLoop, h], Or.inl rfl⟩
    · cases hvs
  | succ fuel ih =>
    intro cur vs best bestM query hvs hr hq
    unfold Group.membersLoop at hvs
    split at hvs
    · rename_i h
      cases hvs
      exact ⟨(best, bestM, query), by simp [Group.bestMatchLoop, h], Or.inl rfl⟩
    · rename_i hc
      simp only at hvs
      obtain ⟨w, hw, hvs1⟩ := Res.bind_eq_ok.mp hvs
      obtain ⟨e, hget, hvs2⟩ := Res.bind_eq_ok.mp hvs1
      obtain ⟨rest, h, hvs3⟩ := Res.bind_eq_ok.mp hvs2
      simp only [Res.pure_eq, Res.ok.injEq] at hvs3
      subst hvs3
      obtain ⟨x, r1, r2⟩ := hr w (by simp)
      obtain ⟨⟨v, query1, sb'⟩, k1, _, _, k4, _⟩ := hd query (Series.mk' x) best hq (by rw [← r2]; exact whole_mk x)
      simp only at k4
      have hrec := ih e.prev rest (if lt v best = true then v else best)
        (if lt v best = true then cur else bestM) query1 h (fun c hc => hr c (by simp [hc])) k4
      have heq : g.bestMatchLoop ds mm d (fuel + 1) cur best bestM query =
          g.bestMatchLoop ds mm d fuel e.prev (if lt v best = true then v else best)
            (if lt v best = true then cur else bestM) query1 := by
        conv_lhs => unfold Group.bestMatchLoop
        rw [if_neg hc]
        simp only
        rw [hw, Res.bind_ok, r1, Res.bind_ok, k1, Res.bind_ok]
        simp only
        rw [hget, Res.bind_ok]
        split <;> rfl
      rw [heq]
      refine hrec.mono ?_
      rintro p (h1 | ⟨u, h1, h2⟩)
      · by_cases hlt : lt v best = true
        · rw [if_pos hlt] at h1
          right
          exact ⟨w, by simp, by rw [h1]; exact hw⟩
        · rw [if_neg hlt] at h1
          exact Or.inl h1
      · exact Or.inr ⟨u, by simp [h1], h2⟩

/-- The whole search: it answers with a sub-series of the dataset, or dereferences a null pointer because no
representative was at a distance below infinity. -/
theorem globalMatch_any {ds : Dataset (F ρ)} {L : Nat} {R : List (List (F ρ))} (hR : ds.Holds L R) (hne : R ≠ [])
    {ratio : ℝ} (junk : F ρ) (hfit : ∀ l ≤ L, RatioOk ρ ratio l) {gs : GlobalSpace (F ρ)}
    (hok : SearchAny ds L gs.locals) {query : Series (F ρ)} {n : Nat} (hq : Whole query n) (hq2 : 2 ≤ n)
    (hqL : n ≤ L) :
    ∃ order, generateTraverseOrder (F.fin ratio : F ρ) n L = .ok order ∧ (∀ l ∈ order, 2 ≤ l ∧ l ≤ (L : Int)) ∧
    ∃ s, searchLoop ds (cascadeDistance junk (F.fin ratio)) order
        { locals := gs.locals, query := query, best := F.pinf, bestGroup := none } = .ok s ∧
      AInv ds L n query.vals s ∧
      ((s.bestGroup = none ∧ gs.getBestMatch junk (F.fin ratio) ds query = .ub "null dereference") ∨
        ∃ (l : Int) (c : Coord) (x : F ρ), (2 ≤ l ∧ l ≤ L) ∧ IsSub ds.itemCount ds.itemLength l c ∧
          gs.getBestMatch junk (F.fin ratio) ds query =
            .ok ({ ts := subView ds l c, dist := x }, { gs with locals := s.locals })) := by
  obtain ⟨order, o1, _, _, low, high, b1, b2, b3, b4, om, _⟩ := traverse_spec (ρ := ρ) hfit hq2 hqL
  have hord : ∀ l ∈ order, 2 ≤ l ∧ l ≤ (L : Int) := by
    intro l hl
    have := (om l).mp hl
    omega
  have hband : ∀ k, 1 ≤ k → k ≤ L → BandOk (F.fin ratio : F ρ) k := by
    intro k h1 h2
    exact ⟨_, band_ok (hfit k h2) h1⟩
  have hd : ∀ l : Int, 2 ≤ l → l ≤ L → DistDefined (cascadeDistance junk (F.fin ratio)) l.toNat n := by
    intro l h1 h2
    exact defined_cascade junk (hband _ (by omega) (by omega)) (by omega) (by omega)
  have hqlen : query.length = (n : Int) := by
    unfold Series.length
    simp only [Onex.len, hq.len]
  obtain ⟨s, hs, hi⟩ := searchLoop_any (vals := query.vals) hd order hord
    { locals := gs.locals, query := query, best := F.pinf, bestGroup := none } ⟨hok, hq, rfl, by simp⟩
  refine ⟨order, o1, hord, s, hs, hi, ?_⟩
  have hlen : len gs.locals - 1 = (L : Int) := by rw [hok.size]; omega
  cases hb : s.bestGroup with
  | none =>
    left
    refine ⟨rfl, ?_⟩
    unfold GlobalSpace.getBestMatch
    rw [if_neg (by rw [hqlen]; omega)]
    simp only
    rw [hqlen, hlen, o1, Res.bind_ok, inf_F, hs, Res.bind_ok]
    simp only [hb]
  | some p =>
    obtain ⟨l, k⟩ := p
    right
    obtain ⟨⟨l2, lL⟩, ls, hget, k0, k1⟩ := hi.best l k hb
    obtain ⟨ls', M, hget', hl⟩ := hi.ok.at_ l l2 lL
    rw [hget] at hget'
    simp only [Res.ok.injEq, Option.some.injEq] at hget'
    subst hget'
    obtain ⟨k, rfl⟩ := Int.eq_ofNat_of_zero_le k0
    have hkg : k < ls.groups.length := by simp only [len] at k1; omega
    have hkM : k < M.length := by rw [← hl.space.card]; exact hkg
    have hinv := hl.space.inv k hkg hkM
    have hmem := getMembers_spec (by omega : 1 ≤ l) hl.space.mapLen hinv
    have hdm : DistDefined (cascadeDistance junk (F.fin ratio)) n l.toNat :=
      defined_cascade junk (hband _ (by omega) (by omega)) (by omega) (by omega)
    obtain ⟨⟨best, bestM, query'⟩, e, hbm⟩ := bestMatchLoop_any hdm (ds := ds) (mm := ls.memberMap)
      (g := ls.groups[k]) (ls.memberMap.length + 1) ls.groups[k].last _ F.pinf (0, 0) s.query hmem (by
        intro v hv
        obtain ⟨c, hc, rfl⟩ := List.mem_map.mp hv
        obtain ⟨r1, r2⟩ := resolve_any hR (by omega) (hinv.subs c hc)
        exact ⟨_, r1, r2⟩) hi.query
    simp only at hbm
    have hv : ∃ c, IsSub ds.itemCount ds.itemLength l c ∧
        ds.getTimeSeries bestM.1 bestM.2 (bestM.2 + ls.groups[k].memberLength) = .ok (subView ds l c) := by
      rcases hbm with h | ⟨v, h1, h2⟩
      · have h0 : IsSub ds.itemCount ds.itemLength l (0, 0) := by
          refine ⟨⟨le_refl _, ?_⟩, le_refl _, ?_⟩
          · rw [hR.itemCount]
            have := List.length_pos_of_ne_nil hne
            simp only
            omega
          · rw [hR.itemLength]
            simp only
            omega
        refine ⟨(0, 0), h0, ?_⟩
        rw [h, hinv.memberLength]
        exact getTimeSeries_sub (by omega) h0
      · obtain ⟨c, hc, rfl⟩ := List.mem_map.mp h1
        exact ⟨c, hinv.subs c hc, h2⟩
    obtain ⟨c, hc, hv⟩ := hv
    refine ⟨l, c, best, ⟨l2, lL⟩, hc, ?_⟩
    unfold GlobalSpace.getBestMatch
    rw [if_neg (by rw [hqlen]; omega)]
    simp only
    rw [hqlen, hlen, o1, Res.bind_ok, inf_F, hs, Res.bind_ok]
    simp only [hb]
    rw [hget, Res.bind_ok]
    simp only
    rw [vget_nat hkg, Res.bind_ok]
    unfold Group.getBestMatch
    rw [inf_F, e, Res.bind_ok]
    simp only
    rw [hv]
    rfl

end Onex
