import Verif.Proofs.MatchState
import Verif.Props.Traverse

/-!
# Properties C33 to C35: matches
-/

namespace Onex
open DataT Spec

/-- The band ratio of an environment, usable for all lengths up to `L`. -/
structure Spec.FitEnv {ρ : Rounding} (env : Env (F ρ)) (L : Nat) (ratio : ℝ) : Prop where
  eq : env.ratio = F.fin ratio
  fits : ∀ l ≤ L, RatioOk ρ ratio l

/-- The states reached from `s₀` by a grouping (any distance, any threshold) followed by any number of answered
matches of any real queries, each with its own band ratio. -/
inductive Spec.Searched {ρ : Rounding} (s₀ : GSet (F ρ)) (L : Nat) : GSet (F ρ) → Prop where
  | grouped {env ratio name th n s'} (hf : FitEnv env L ratio)
      (h : s₀.groupAllLengths env name th = (.ok n, s')) : Searched s₀ L s'
  | matched {s env ratio query q c s'} (hs : Searched s₀ L s) (hf : FitEnv env (max L q.length) ratio)
      (hq : SeriesOk query q) (h : s.getBestMatch env query = (.ok c, s')) : Searched s₀ L s'

variable {ρ : Rounding}

theorem Spec.FitEnv.mono {env : Env (F ρ)} {L L' : Nat} {ratio : ℝ} (h : FitEnv env L ratio) (hl : L' ≤ L) :
    FitEnv env L' ratio := ⟨h.eq, fun l h' => h.fits l (by omega)⟩

theorem getBestMatch_of {env : Env (F ρ)} {ratio : ℝ} (hr : env.ratio = F.fin ratio) {s : GSet (F ρ)}
    {gs : GlobalSpace (F ρ)} (hg : s.groups = some gs) {query : Series (F ρ)} :
    s.getBestMatch env query = (match gs.getBestMatch env.junk (F.fin ratio) s.ds query with
    | .ok (c, gs) => (.ok c, { s with groups := some gs })
    | .throw e => (.throw e, s)
    | .ub w => (.ub w, s)) := by
  unfold GSet.getBestMatch
  simp only [hg, hr]
  cases gs.getBestMatch env.junk (F.fin ratio) s.ds query <;> rfl

/-- What is known of every searched state. -/
theorem searched_inv {s₀ s : GSet (F ρ)} {L : Nat} {R : List (List ℝ)} (hR : s₀.ds.Holds L (R.map fins))
    (hne : R ≠ []) (h : Searched s₀ L s) :
    s.ds = s₀.ds ∧ ∃ gs MM AA, s.groups = some gs ∧ SearchOk s₀.ds L gs.locals MM AA ∧ RepMember L R MM AA := by
  induction h with
  | grouped hf h => exact grouped_searchOk hf.eq hR hne hf.fits h
  | @matched s env ratio query q c s' hs hf hq h ih =>
    obtain ⟨hds, gs, MM, AA, hg, hok, hrep⟩ := ih
    rw [getBestMatch_of hf.eq hg] at h
    by_cases h1 : q.length ≤ 1
    · exfalso
      unfold GlobalSpace.getBestMatch at h
      rw [if_pos (by unfold Series.length; rw [hq.vals]; simp [len]; omega)] at h
      simp at h
    by_cases h2 : q.length ≤ L
    · obtain ⟨l, c', gs', order, k, hM, hA, e, _, _, _, hok', _⟩ := globalMatch_spec hR env.junk
        (hf.mono (by omega : L ≤ max L q.length)).fits hok (by omega : 2 ≤ q.length) h2 hq
      rw [hds, e] at h
      simp only [Prod.mk.injEq] at h
      obtain ⟨_, rfl⟩ := h
      exact ⟨rfl, gs', MM, AA, rfl, hok', hrep⟩
    · exfalso
      obtain ⟨why, e⟩ := globalMatch_long (ds := s.ds) (gs := gs) env.junk (by omega : 2 ≤ q.length)
        (by have := hok.size; simp only [len] at this; omega)
        (hf.mono (by omega : q.length ≤ max L q.length)).fits hq
      rw [e] at h
      simp at h

/-- C33, for every rounding: in every searched state of a nonempty dataset of real numbers, a match of a query of
length 2 up to the series length is answered, and the answer is a sub-series of the dataset with
exactly the finite warped distance the library computes between the query and that sub-series; the
new state is again such a state. -/
theorem C33_match_is_real (s₀ s : GSet (F ρ)) (L : Nat) (R : List (List ℝ)) (hR : s₀.ds.Holds L (R.map fins))
    (hne : R ≠ []) (hs : Searched s₀ L s) (env : Env (F ρ)) (ratio : ℝ) (hf : FitEnv env L ratio)
    (q : List ℝ) (query : Series (F ρ)) (hq : SeriesOk query q) (h2 : 2 ≤ q.length) (hL : q.length ≤ L) :
    ∃ (i start l : Nat) (x : ℝ) (v : View) (s' : GSet (F ρ)),
      s.getBestMatch env query = (.ok { ts := v, dist := F.fin x }, s') ∧ Searched s₀ L s' ∧ s'.ds = s.ds ∧
      i < R.length ∧ 2 ≤ l ∧ start + l ≤ L ∧ v.index = i ∧ v.start = start ∧ v.stop = start + l ∧
      SubValues s.ds v (((R.getD i []).drop start).take l) ∧
      warpedDistance (F.fin ratio) (fins q) (fins (((R.getD i []).drop start).take l)) F.pinf = .ok (F.fin x : F ρ) := by
  obtain ⟨hds, gs, MM, AA, hg, hok, _⟩ := searched_inv hR hne hs
  obtain ⟨l, c, gs', order, k, hM, hA, e, ⟨l2, lL⟩, hsub, hfin, hok', _⟩ := globalMatch_spec hR env.junk
    hf.fits hok h2 hL hq
  have hrun := getBestMatch_of hf.eq hg (query := query)
  rw [hds, e] at hrun
  simp only at hrun
  obtain ⟨r1, r2⟩ := resolve_sub hR (by omega : 1 ≤ l) hsub
  rcases wrd_val (ρ := ρ) ratio q (subVals R l c) (by omega) with e' | ⟨x, _, e'⟩
  · exact absurd e' hfin
  have hcount := HoldsReal.count hR
  have hlen := hR.itemLength
  have hsub' := hsub
  obtain ⟨⟨b1, b2⟩, b3, b4⟩ := hsub'
  have hw := warped_inf (ρ := ρ) (ratio := ratio) (a := q) (b := subVals R l c)
    (hf.fits _ (by omega)) (by omega) (by omega)
  refine ⟨c.1.toNat, c.2.toNat, l.toNat, x, subView s₀.ds l c,
    { ds := s₀.ds, groups := some gs', threshold := s.threshold }, by rw [hrun, e'], ?_, hds.symm, by omega, by omega, by omega,
    ?_, ?_, ?_, ?_, ?_⟩
  · refine Searched.matched hs (hf.mono (by omega : max L q.length ≤ L)) hq ?_ (c := { ts := subView s₀.ds l c, dist := wrd ρ ratio q (subVals R l c) })
    exact hrun
  · simp only [subView]
    omega
  · simp only [subView]
    omega
  · simp only [subView]
    omega
  · rw [hds]
    exact r1
  · have hw' : warpedDistance (F.fin ratio) (fins q) (fins (subVals R l c)) F.pinf = .ok (wrd ρ ratio q (subVals R l c)) := hw
    rw [e'] at hw'
    exact hw'

/-- C35, in exact arithmetic: the distance of the answer is at most the warped distance between the query and
the representative of every group of every length. -/
theorem C35_best_of_representatives (s₀ s : GSet (F Rounding.exact)) (L : Nat) (R : List (List ℝ))
    (hR : s₀.ds.Holds L (R.map fins)) (hne : R ≠ []) (hs : Searched s₀ L s) (env : Env (F Rounding.exact))
    (ratio : ℝ) (hf : FitEnv env L ratio) (q : List ℝ) (query : Series (F Rounding.exact))
    (hq : SeriesOk query q) (h2 : 2 ≤ q.length) (hL : q.length ≤ L) :
    ∃ c s', s.getBestMatch env query = (.ok c, s') ∧
      ∀ l ls, GroupsOf s l ls → ∀ (k : Nat) (hk : k < ls.groups.length), ∃ a, RepValues s.ds ls.groups[k] a ∧
        (a.length : Int) = l ∧ le c.dist (warped ratio q a) = true := by
  obtain ⟨hds, gs, MM, AA, hg, hok, hrep⟩ := searched_inv hR hne hs
  obtain ⟨l, c, gs', order, k, hM, hA, e, ⟨l2, lL⟩, hsub, hfin, hok', _, hord, hc, hbest⟩ :=
    globalMatch_spec hR env.junk hf.fits hok h2 hL hq
  have hrun := getBestMatch_of hf.eq hg (query := query)
  rw [hds, e] at hrun
  simp only at hrun
  obtain ⟨b1, b2, _⟩ := hbest (honest_cascade env.junk ratio)
  obtain ⟨r, r1, r2⟩ := hrep l l2 lL k hM hA
  have h0 : 0 ≤ ratio := (hf.fits 0 (by omega)).nonneg
  have hLr : (L : ℝ) * ratio < 2147483648 := (hf.fits L (le_refl _)).range
  obtain ⟨order', t1, _, _, t2, _⟩ := C32_traverse_order ratio q.length L h2 hL h0 hLr
  rw [hord, Res.ok.injEq] at t1
  subst t1
  refine ⟨_, _, hrun, ?_⟩
  rintro l' ls ⟨gs0, g1, g2⟩ k' hk'
  rw [hg, Option.some.injEq] at g1
  subst g1
  have hl' : 2 ≤ l' ∧ l' ≤ L := by
    obtain ⟨i0, i1⟩ := vget_lt g2
    rw [hok.size] at i1
    refine ⟨?_, by omega⟩
    by_contra hlt
    rw [hok.short l' i0 (by omega) (by omega)] at g2
    simp at g2
  obtain ⟨ls', g3, hlo⟩ := hok.at_ l' hl'.1 hl'.2
  rw [g2] at g3
  simp only [Res.ok.injEq, Option.some.injEq] at g3
  subst g3
  have hkA : k' < (AA l').length := by rw [← hlo.cents.1]; exact hk'
  obtain ⟨sc, s1, s2⟩ := hlo.cents.2 k' hk' hkA
  have hlenA := hlo.lenA _ (List.getElem_mem hkA)
  refine ⟨(AA l')[k'], ⟨sc, by rw [hds]; exact s1, s2.vals⟩, by omega, ?_⟩
  simp only
  have hrA : RatioOk Rounding.exact ratio (Max.max q.length ((AA l')[k']).length) := hf.fits _ (by omega)
  by_cases hin : l' ∈ order
  · have hn1 := b2 l' hin _ (List.getElem_mem hkA)
    have hn2 := b1 r r1
    rw [← r2, wrd_comm] at hn2
    have hnan : wrd Rounding.exact ratio (AA l)[k] q ≠ F.nan := by
      have hl1 := hok.at_ l l2 lL
      obtain ⟨ls1, _, hlo1⟩ := hl1
      have := hlo1.lenA _ (List.getElem_mem hA)
      rcases wrd_val (ρ := Rounding.exact) ratio (AA l)[k] q (by omega) with e | ⟨x, _, e⟩ <;> rw [e] <;> simp
    have hn := not_lt_trans hn1 hn2 hnan
    rw [wrd_comm, wrd_eq_warped ratio q _ hrA h2 (by omega)] at hn
    rw [lt_iff] at hn
    rw [le_iff]
    rcases wrd_val (ρ := Rounding.exact) ratio q (subVals R l c) (by omega) with e | ⟨x, _, e⟩
    · exact absurd e hfin
    · rw [e] at hn ⊢
      have hwv := wrd_val (ρ := Rounding.exact) ratio q (AA l')[k'] (by omega)
      rw [wrd_eq_warped ratio q _ hrA h2 (by omega)] at hwv
      rcases hwv with e' | ⟨y, _, e'⟩
      · rw [e']
        exact Or.inl trivial
      · rw [e'] at hn ⊢
        exact (not_lt.mp hn).lt_or_eq
  · have hinf : warped ratio q (AA l')[k'] = F.pinf := by
      by_contra hcon
      exact hin ((t2 l').mpr ⟨hl', q, (AA l')[k'], rfl, by omega, hcon⟩)
    rw [hinf, le_iff]
    rcases wrd_val (ρ := Rounding.exact) ratio q (subVals R l c) (by omega) with e | ⟨x, _, e⟩
    · exact absurd e hfin
    · rw [e]
      exact Or.inl trivial

/-- C34, the part that holds, in every state and for every number type: an ungrouped dataset and a query with fewer than two
points are rejected with an `OnexException`, and nothing changes.  (That all other queries up to the series
length are answered is part of C33; the two theorems below show that longer queries, and datasets left by a
failed grouping, are not rejected.) -/
theorem C34_rejected_partial {α : Type} [DataT α] (env : Env α) (s : GSet α) (query : Series α)
    (h : s.groups = none ∨ query.length < 2) :
    ∃ msg, s.getBestMatch env query = (.throw (.onex msg), s) := by
  unfold GSet.getBestMatch
  cases hg : s.groups with
  | none => exact ⟨_, rfl⟩
  | some gs =>
    rcases h with h | h
    · rw [hg] at h
      simp at h
    · refine ⟨"Length of query must be larger than 1", ?_⟩
      simp only [GlobalSpace.getBestMatch]
      rw [if_pos (by omega)]

/-- C34 is false: a query longer than the series of the dataset reads past the end of the table of
lengths, in every searched state. -/
theorem C34_long_query_counterexample (s₀ s : GSet (F ρ)) (L : Nat) (R : List (List ℝ))
    (hR : s₀.ds.Holds L (R.map fins)) (hne : R ≠ []) (hs : Searched s₀ L s) (env : Env (F ρ)) (ratio : ℝ)
    (q : List ℝ) (hf : FitEnv env q.length ratio) (query : Series (F ρ)) (hq : SeriesOk query q)
    (h2 : 2 ≤ q.length) (hL : L < q.length) :
    ∃ why, (s.getBestMatch env query).1 = .ub why := by
  obtain ⟨hds, gs, MM, AA, hg, hok, _⟩ := searched_inv hR hne hs
  obtain ⟨why, e⟩ := globalMatch_long (ds := s.ds) (gs := gs) env.junk h2
    (by have := hok.size; simp only [len] at this; omega) hf.fits hq
  rw [getBestMatch_of hf.eq hg, e]
  exact ⟨why, rfl⟩

/-- C34 is false: after a grouping request with an unknown distance, which throws, the dataset counts as
grouped, and every query reads past the end of the (empty) table. -/
theorem C34_unknown_distance_counterexample (s : GSet (F ρ)) (hload : s.ds.isLoaded = true) (name : String)
    (hname : name ≠ "euclidean" ∧ name ≠ "euclidean_dtw") (th : F ρ) (env env' : Env (F ρ)) (ratio : ℝ)
    (q : List ℝ) (hf : FitEnv env' q.length ratio) (query : Series (F ρ)) (hq : SeriesOk query q)
    (h2 : 2 ≤ q.length) :
    ∃ msg s', s.groupAllLengths env name th = (.throw (.onex msg), s') ∧ s'.isGrouped = true ∧
      ∃ why, (s'.getBestMatch env' query).1 = .ub why := by
  have hg : (GlobalSpace.fresh : GlobalSpace (F ρ)).group env.ratio s.ds name th env.doLog =
      (.throw (.onex ("Cannot find distance with name: " ++ name)), { locals := [], distanceName := name }) := by
    unfold GlobalSpace.group getDistance
    rw [if_neg hname.1, if_neg hname.2]
  refine ⟨"Cannot find distance with name: " ++ name,
    { s with groups := some { locals := [], distanceName := name } }, ?_, rfl, ?_⟩
  · unfold GSet.groupAllLengths
    rw [if_neg (by simp [hload])]
    simp only [GSet.reset]
    rw [hg]
  · obtain ⟨why, e⟩ := globalMatch_long (ds := s.ds) (gs := { locals := [], distanceName := name }) env'.junk h2
      (by simp) hf.fits hq
    rw [getBestMatch_of hf.eq rfl, e]
    exact ⟨why, rfl⟩

/-- A case for all theorems above: two series of length 3, grouped without logging; the query
`[1, 2]` is answered, and so is `[0, 1, 2]` afterwards; `[1, 2, 3, 4]` is undefined. -/
example (io : NumIO (F Rounding.exact)) (stod : Text → Stod (F Rounding.exact)) (st : ℝ) :
    let R : List (List ℝ) := [[0, 1, 2], [5, 5, 6]]
    let env : Env (F Rounding.exact) := ⟨F.fin 1, F.nan, io, stod, fun _ => false⟩
    let s : GSet (F Rounding.exact) := ⟨⟨some (R.map fins).flatten, 0, 3, 2, "", false⟩, none, none⟩
    ∃ n s₁, s.groupAllLengths env "euclidean" (F.fin st) = (.ok n, s₁) ∧
      ∃ c s₂, s₁.getBestMatch env (Series.mk' (fins [1, 2])) = (.ok c, s₂) ∧
        (∃ c' s₃, s₂.getBestMatch env (Series.mk' (fins [0, 1, 2])) = (.ok c', s₃)) ∧
        ∃ why, (s₂.getBestMatch env (Series.mk' (fins [1, 2, 3, 4]))).1 = .ub why := by
  intro R env s
  have hR : s.ds.Holds 3 (R.map fins) := by
    refine ⟨?_, rfl, rfl, [], by simp [s]⟩
    intro r hr
    simp only [R, List.map_cons, List.map_nil, List.mem_cons, List.not_mem_nil, or_false] at hr
    rcases hr with rfl | rfl <;> rfl
  have hfit : ∀ L : Nat, L ≤ 4 → FitEnv env L 1 := by
    intro L hL
    refine ⟨rfl, ratioOk_of (by norm_num) ?_⟩
    have : (L : ℝ) ≤ 4 := by exact_mod_cast hL
    linarith
  obtain ⟨n, s₁, h⟩ := C36_completes_partial env 1 rfl s 3 R hR (hfit 3 (by norm_num)).fits "euclidean" (Or.inl rfl)
    (F.fin st) (Or.inr fun _ => rfl)
  have h1 : Searched s 3 s₁ := .grouped (hfit 3 (by norm_num)) h
  have hne : R ≠ [] := by simp [R]
  obtain ⟨_, _, _, _, _, s₂, e2, h2, _⟩ := C33_match_is_real s s₁ 3 R hR hne h1 env 1 (hfit 3 (by norm_num)) [1, 2] _
    (seriesOk_mk _) (by simp) (by simp)
  obtain ⟨_, _, _, _, _, s₃, e3, _, _⟩ := C33_match_is_real s s₂ 3 R hR hne h2 env 1 (hfit 3 (by norm_num)) [0, 1, 2] _
    (seriesOk_mk _) (by simp) (by simp)
  exact ⟨n, s₁, h, _, s₂, e2, ⟨_, s₃, e3⟩, C34_long_query_counterexample s s₂ 3 R hR hne h2 env 1 [1, 2, 3, 4]
    (hfit _ (by simp)) _ (seriesOk_mk _) (by simp) (by simp)⟩

end Onex
