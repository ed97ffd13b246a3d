import Verif.Props.Match
import Verif.Proofs.AskedAll
import Verif.Proofs.WarpTriangle
import Verif.Proofs.Three
import Verif.Proofs.Stale

/-!
# Properties C35 (which group answers) and C55: how good the answer is
-/

namespace Onex
open DataT Spec

/-- `s` is what `s₁` becomes by any number of answered matches of real queries, each with its own band ratio. -/
inductive Spec.Matches {ρ : Rounding} (L : Nat) (s₁ : GSet (F ρ)) : GSet (F ρ) → Prop where
  | none : Matches L s₁ s₁
  | more {s env ratio query q c s'} (hs : Matches L s₁ s) (hf : FitEnv env (max L q.length) ratio)
      (hq : SeriesOk query q) (h : s.getBestMatch env query = (.ok c, s')) : Matches L s₁ s'

section any
variable {ρ : Rounding}

theorem Spec.Matches.searched {L : Nat} {s₀ s₁ s : GSet (F ρ)} (h : Matches L s₁ s) (h₁ : Searched s₀ L s₁) :
    Searched s₀ L s := by
  induction h with
  | none => exact h₁
  | more _ hf hq h ih => exact .matched ih hf hq h

/-- Matches leave everything but the caches. -/
theorem Spec.Matches.same {L : Nat} {s₁ s : GSet (F ρ)} (h : Matches L s₁ s) {gs : GlobalSpace (F ρ)}
    (hg : s₁.groups = some gs) : s.ds = s₁.ds ∧ ∃ gs', s.groups = some gs' ∧ TSame gs.locals gs'.locals := by
  induction h with
  | none => exact ⟨rfl, gs, hg, TSame.refl _⟩
  | @more s env ratio query q c s' _ hf hq h ih =>
    obtain ⟨h1, gs1, h2, h3⟩ := ih
    rw [getBestMatch_of hf.eq h2] at h
    cases hr : gs1.getBestMatch env.junk (F.fin ratio) s.ds query with
    | ok r =>
      obtain ⟨c', gs2⟩ := r
      rw [hr] at h
      simp only [Prod.mk.injEq] at h
      obtain ⟨_, rfl⟩ := h
      exact ⟨h1, gs2, rfl, forall₂_trans (fun _ _ _ => orel_trans) h3 (globalMatch_tsame hr)⟩
    | throw e =>
      rw [hr] at h
      simp at h
    | ub w =>
      rw [hr] at h
      simp at h

theorem Spec.Matches.groupsOf {L : Nat} {s₁ s : GSet (F ρ)} (h : Matches L s₁ s) {l : Int} {ls : LocalSpace (F ρ)}
    (hls : GroupsOf s₁ l ls) : s.ds = s₁.ds ∧ ∃ ls', GroupsOf s l ls' ∧ LSame ls ls' := by
  obtain ⟨gs, g1, g2⟩ := hls
  obtain ⟨h1, gs', h2, h3⟩ := h.same g1
  refine ⟨h1, ?_⟩
  have := RR.vget (R := Option.Rel LSame) h3 l
  rw [g2] at this
  cases hv : vget gs'.locals l with
  | ok o =>
    rw [hv] at this
    cases this with
    | ok h' =>
      cases h' with
      | some hl => exact ⟨_, ⟨gs', h2, hv⟩, hl⟩
  | throw e =>
    rw [hv] at this
    cases this
  | ub w =>
    rw [hv] at this
    cases this

theorem repValues_same {ds : Dataset (F ρ)} {g g' : Group (F ρ)} (h : GSame g g') {a : List ℝ}
    (ha : RepValues ds g a) : RepValues ds g' a := by
  obtain ⟨c, rfl⟩ := h
  obtain ⟨s, h1, h2⟩ := ha
  rw [Cent.resolve_eq] at h1
  obtain ⟨x, h3, h4⟩ := Res.bind_eq_ok.mp h1
  cases h4
  refine ⟨{ vals := x, cache := c }, ?_, h2⟩
  rw [Cent.resolve_eq, show (recache g c).centroid.srcVals ds = g.centroid.srcVals ds from rfl, h3]
  rfl

theorem fins_inj {a b : List ℝ} (h : (a.map F.fin : List (F ρ)) = b.map F.fin) : a = b :=
  List.map_injective_iff.mpr (fun _ _ h => F.fin.inj h) h

theorem repValues_unique {ds : Dataset (F ρ)} {g : Group (F ρ)} {a b : List ℝ} (ha : RepValues ds g a)
    (hb : RepValues ds g b) : a = b := by
  obtain ⟨s, h1, h2⟩ := ha
  obtain ⟨t, h3, h4⟩ := hb
  rw [h1, Res.ok.injEq] at h3
  subst h3
  exact fins_inj (h2.symm.trans h4)

end any

abbrev XF := F Rounding.exact

/-- Which group answers, in any state that can be searched. -/
theorem nearest_group_of {s : GSet XF} {L : Nat} {R : List (List ℝ)} (hR : s.ds.Holds L (R.map fins))
    {gs : GlobalSpace XF} {MM : Int → List (List Coord)} {AA : Int → List (List ℝ)} (hg : s.groups = some gs)
    (hok : SearchOk s.ds L gs.locals MM AA) {env : Env XF} {ratio : ℝ} (hf : FitEnv env L ratio) {q : List ℝ}
    {query : Series XF} (hq : SeriesOk query q) (h2 : 2 ≤ q.length) (hL : q.length ≤ L) :
    ∃ (l : Int) (ls : LocalSpace XF) (k : Nat) (hk : k < ls.groups.length) (a : List ℝ) (vs : List View) (v : View)
      (y : List ℝ) (s' : GSet XF),
      s.getBestMatch env query = (.ok { ts := v, dist := warped ratio q y }, s') ∧ SubValues s.ds v y ∧
      GroupsOf s l ls ∧ RepValues s.ds ls.groups[k] a ∧ ls.groups[k].getMembers s.ds ls.memberMap = .ok vs ∧ v ∈ vs ∧
      (∀ v' ∈ vs, ∃ y', SubValues s.ds v' y' ∧ le (warped ratio q y) (warped ratio q y') = true) ∧
      (∃ pre post, vs = pre ++ v :: post ∧
        ∀ v' ∈ pre, ∃ y', SubValues s.ds v' y' ∧ lt (warped ratio q y) (warped ratio q y') = true) ∧
      ∀ l' ls', GroupsOf s l' ls' → ∀ (k' : Nat) (hk' : k' < ls'.groups.length), ∃ a',
        RepValues s.ds ls'.groups[k'] a' ∧ le (warped ratio q a) (warped ratio q a') = true := by
  obtain ⟨l, c, gs', order, k, hM, hA, e, ⟨l2, lL⟩, hsub, hfin, hok', _, hord, hc, hbest⟩ :=
    globalMatch_spec hR env.junk hf.fits hok h2 hL hq
  have hrun := getBestMatch_of hf.eq hg (query := query)
  rw [e] at hrun
  simp only at hrun
  obtain ⟨b1, b2, pre, post, b3, b4⟩ := hbest (honest_cascade env.junk ratio)
  have h0 : 0 ≤ ratio := (hf.fits 0 (by omega)).nonneg
  have hLr : (L : ℝ) * ratio < 2147483648 := (hf.fits L (le_refl _)).range
  obtain ⟨order', t1, _, _, t2, _⟩ := C32_traverse_order ratio q.length L h2 hL h0 hLr
  rw [hord, Res.ok.injEq] at t1
  subst t1
  obtain ⟨ls, hget, hlo⟩ := hok.at_ l l2 lL
  have hkg : k < ls.groups.length := by rw [hlo.cents.1]; exact hA
  have hinv := hlo.space.inv k hkg hM
  have hmem := getMembers_spec (by omega : 1 ≤ l) hlo.space.mapLen hinv
  have hsv : ∀ c ∈ (MM l)[k], s.ds.resolve (subView s.ds l c) = .ok (fins (subVals R l c)) ∧
      (subVals R l c).length = l.toNat := fun c hc => resolve_sub hR (by omega) (hinv.subs c hc)
  have hwr : ∀ b : List ℝ, 2 ≤ b.length → b.length ≤ L → wrd Rounding.exact ratio q b = warped ratio q b :=
    fun b hb hb' => wrd_eq_warped ratio q b (hf.fits _ (by omega)) h2 hb
  have hAlen := hlo.lenA _ (List.getElem_mem hA)
  have hle : ∀ b b' : List ℝ, 2 ≤ b.length → b.length ≤ L → 2 ≤ b'.length → b'.length ≤ L →
      wrd Rounding.exact ratio q b ≠ F.pinf →
      ¬ lt (wrd Rounding.exact ratio q b') (wrd Rounding.exact ratio q b) = true →
      le (warped ratio q b) (warped ratio q b') = true := by
    intro b b' k1 k2 k3 k4 hb hn
    rw [← hwr b k1 k2, ← hwr b' k3 k4, le_iff]
    rw [lt_iff] at hn
    rcases wrd_val (ρ := Rounding.exact) ratio q b (by omega) with e | ⟨x, _, e⟩
    · exact absurd e hb
    · rw [e] at hn ⊢
      rcases wrd_val (ρ := Rounding.exact) ratio q b' (by omega) with e' | ⟨y, _, e'⟩
      · rw [e']
        exact Or.inl trivial
      · rw [e'] at hn ⊢
        exact (not_lt.mp hn).lt_or_eq
  obtain ⟨sc, s1, s2⟩ := hlo.cents.2 k hkg hA
  have hclen := (hsv c hc).2
  have hAfin : wrd Rounding.exact ratio q (AA l)[k] ≠ F.pinf := by
    rw [wrd_comm] at hfin ⊢
    rw [Ne, wrd_finite_iff _ _ _ (by omega) h2] at hfin ⊢
    rw [hclen] at hfin
    rw [hAlen]
    exact hfin
  refine ⟨l, ls, k, hkg, (AA l)[k], (MM l)[k].map (subView s.ds l), subView s.ds l c, subVals R l c,
    { ds := s.ds, groups := some gs', threshold := s.threshold }, ?_, ?_, ⟨gs, hg, hget⟩, ⟨sc, s1, s2.vals⟩,
    hmem, List.mem_map_of_mem hc, ?_, ?_, ?_⟩
  · rw [hrun, hwr _ (by omega) (by omega)]
  · exact (hsv c hc).1
  · intro v' hv'
    obtain ⟨c', hc', rfl⟩ := List.mem_map.mp hv'
    obtain ⟨r1, r2⟩ := hsv c' hc'
    exact ⟨subVals R l c', r1, hle _ _ (by omega) (by omega) (by omega) (by omega) hfin (b1 c' hc')⟩
  · refine ⟨pre.map (subView s.ds l), post.map (subView s.ds l), by rw [b3]; simp, fun v' hv' => ?_⟩
    obtain ⟨c', hc', rfl⟩ := List.mem_map.mp hv'
    obtain ⟨r1, r2⟩ := hsv c' (by rw [b3]; simp [hc'])
    refine ⟨subVals R l c', r1, ?_⟩
    rw [← hwr _ (by omega) (by omega), ← hwr _ (by omega) (by omega)]
    exact b4 c' hc'
  · rintro l' ls' ⟨gs0, g1, g2⟩ k' hk'
    rw [hg, Option.some.injEq] at g1
    subst g1
    have hl' : 2 ≤ l' ∧ l' ≤ L := by
      obtain ⟨i0, i1⟩ := vget_lt g2
      rw [hok.size] at i1
      refine ⟨?_, by omega⟩
      by_contra hlt
      rw [hok.short l' i0 (by omega) (by omega)] at g2
      simp at g2
    obtain ⟨ls1, g3, hlo'⟩ := hok.at_ l' hl'.1 hl'.2
    rw [g2] at g3
    simp only [Res.ok.injEq, Option.some.injEq] at g3
    subst g3
    have hkA : k' < (AA l').length := by rw [← hlo'.cents.1]; exact hk'
    obtain ⟨sc', s1', s2'⟩ := hlo'.cents.2 k' hk' hkA
    have hlenA := hlo'.lenA _ (List.getElem_mem hkA)
    refine ⟨(AA l')[k'], ⟨sc', s1', s2'.vals⟩, ?_⟩
    by_cases hin : l' ∈ order
    · have hn := b2 l' hin _ (List.getElem_mem hkA)
      rw [wrd_comm, wrd_comm ratio (AA l)[k]] at hn
      exact hle _ _ (by omega) (by omega) (by omega) (by omega) hAfin hn
    · have hinf : warped ratio q (AA l')[k'] = F.pinf := by
        by_contra hcon
        exact hin ((t2 l').mpr ⟨hl', q, (AA l')[k'], rfl, by omega, hcon⟩)
      rw [hinf, le_iff, ← hwr _ (by omega) (by omega)]
      rcases wrd_val (ρ := Rounding.exact) ratio q (AA l)[k] (by omega) with e | ⟨x, _, e⟩
      · exact absurd e hAfin
      · rw [e]
        exact Or.inl trivial

/-- C35, which group answers, in exact arithmetic: the answer is a member of a group whose representative is at
least as near to the query as the representative of every group of every length, and is at least as near as every
other member of that group; it is the first of the nearest members in the order in which they are listed. -/
theorem C35_nearest_group (s₀ s : GSet XF) (L : Nat) (R : List (List ℝ))
    (hR : s₀.ds.Holds L (R.map fins)) (hne : R ≠ []) (hs : Searched s₀ L s) (env : Env XF)
    (ratio : ℝ) (hf : FitEnv env L ratio) (q : List ℝ) (query : Series XF)
    (hq : SeriesOk query q) (h2 : 2 ≤ q.length) (hL : q.length ≤ L) :
    ∃ (l : Int) (ls : LocalSpace XF) (k : Nat) (hk : k < ls.groups.length) (a : List ℝ) (vs : List View) (v : View)
      (y : List ℝ) (s' : GSet XF),
      s.getBestMatch env query = (.ok { ts := v, dist := warped ratio q y }, s') ∧ SubValues s.ds v y ∧
      GroupsOf s l ls ∧ RepValues s.ds ls.groups[k] a ∧ ls.groups[k].getMembers s.ds ls.memberMap = .ok vs ∧ v ∈ vs ∧
      (∀ v' ∈ vs, ∃ y', SubValues s.ds v' y' ∧ le (warped ratio q y) (warped ratio q y') = true) ∧
      (∃ pre post, vs = pre ++ v :: post ∧
        ∀ v' ∈ pre, ∃ y', SubValues s.ds v' y' ∧ lt (warped ratio q y) (warped ratio q y') = true) ∧
      ∀ l' ls', GroupsOf s l' ls' → ∀ (k' : Nat) (hk' : k' < ls'.groups.length), ∃ a',
        RepValues s.ds ls'.groups[k'] a' ∧ le (warped ratio q a) (warped ratio q a') = true := by
  obtain ⟨hds, gs, MM, AA, hg, hok, _⟩ := searched_inv hR hne hs
  rw [← hds] at hR hok
  exact nearest_group_of hR hg hok hf hq h2 hL

section near
variable (s₀ s₁ s : GSet XF) (L : Nat) (R : List (List ℝ)) (hR : s₀.ds.Holds L (R.map fins)) (hne : R ≠ [])
  (env₀ env : Env XF) (ratio₀ ratio : ℝ) (hf₀ : FitEnv env₀ L ratio₀) (hf : FitEnv env L ratio)
  (st : ℝ) (hst : 0 ≤ st) (n : Int)
  (q : List ℝ) (query : Series XF) (hq : SeriesOk query q) (h2 : 2 ≤ q.length) (hL : q.length ≤ L)

include hR hf₀ hst in
/-- The representative of the group a sub-series is in, after any number of matches. -/
theorem rep_of_window {name : String} {W} (hW : NamedDist ratio₀ name W)
    (h : s₀.groupAllLengths env₀ name (F.fin st) = (.ok n, s₁)) (hs : Matches L s₁ s)
    (i b l : Nat) (hi : i < R.length) (hl : 2 ≤ l) (hb : b + l ≤ L) :
    ∃ ls, GroupsOf s l ls ∧ ∃ (k : Nat) (hk : k < ls.groups.length) (rep : List ℝ), RepValues s.ds ls.groups[k] rep ∧
      rep.length = l ∧ (((R.getD i []).drop b).take l).length = l ∧
      ∃ x, W rep (((R.getD i []).drop b).take l) = F.fin x ∧ x ≤ st / 2 := by
  have hcnt := HoldsReal.count hR
  obtain ⟨p1, p2⟩ := C25_partition env₀ name (F.fin st) s₀ s₁ n (by omega) h
  obtain ⟨ls, hls⟩ := p1 l (by omega) (by rw [hR.itemLength]; omega)
  obtain ⟨_, _, M, hM⟩ := p2 l ls hls
  have hsub : IsSub s₀.ds.itemCount s₀.ds.itemLength (l : Int) ((i : Int), (b : Int)) := by
    rw [hcnt, hR.itemLength]
    exact ⟨⟨by simp, by simp only; omega⟩, by simp, by simp only; omega⟩
  have hmem := (hM.all _).mpr hsub
  obtain ⟨m, hm1, hm2⟩ := List.mem_flatten.mp hmem
  obtain ⟨k, hk', rfl⟩ := List.getElem_of_mem hm1
  have hk : k < ls.groups.length := by rw [← hM.card]; exact hk'
  obtain ⟨e1, _, _⟩ := hM.members k hk hk'
  obtain ⟨rep, r1, vs, r2, r3⟩ := C26_within_half env₀ ratio₀ hf₀.eq s₀ s₁ L R hR (hf₀.fits 0 (by omega)).nonneg
    (hf₀.fits L (le_refl _)).range hW st hst n h l ls hls k hk
  rw [e1, Res.ok.injEq] at r2
  subst r2
  obtain ⟨y, x, y1, y2, y3, y4⟩ := r3 _ (List.mem_map_of_mem hm2)
  obtain ⟨z1, z2⟩ := resolve_sub hR (by omega : (1 : Int) ≤ l) hsub
  unfold SubValues at y1
  rw [z1, Res.ok.injEq] at y1
  have hy : subVals R (l : Int) ((i : Int), (b : Int)) = y := fins_inj y1
  have hv : subVals R (l : Int) ((i : Int), (b : Int)) = ((R.getD i []).drop b).take l := by simp [subVals]
  obtain ⟨d1, ls', g1, g2⟩ := hs.groupsOf hls
  have hk2 : k < ls'.groups.length := by rw [← g2.groups.length_eq]; exact hk
  have hsame := (List.forall₂_iff_get.mp g2.groups).2 k hk hk2
  simp only [List.get_eq_getElem] at hsame
  rw [hv] at z2 hy
  have hds := (groupAllLengths_ok h).1
  refine ⟨ls', g1, k, hk2, rep, ?_, ?_, by simpa using z2, x, by rw [hy]; exact y3, y4⟩
  · rw [d1, hds]
    exact repValues_same hsame r1
  · rw [← y2, ← hy]
    simpa using z2

include hR hne hf₀ hf hq h2 hL in
/-- The answer, and that no representative is nearer. -/
theorem answer_le {name : String} {th : XF} (h : s₀.groupAllLengths env₀ name th = (.ok n, s₁)) (hs : Matches L s₁ s) :
    ∃ x v s', s.getBestMatch env query = (.ok { ts := v, dist := F.fin x }, s') ∧ 0 ≤ x ∧
      ∀ l ls, GroupsOf s l ls → ∀ (k : Nat) (hk : k < ls.groups.length) (a : List ℝ), RepValues s.ds ls.groups[k] a →
        ∀ w, warped ratio q a = F.fin w → x ≤ w := by
  have hsearch : Searched s₀ L s := hs.searched (.grouped hf₀ h)
  obtain ⟨i, b, l, x, v, s', e, _, _, hi, hl, hbl, _, _, _, hsv, hx⟩ := C33_match_is_real s₀ s L R hR hne hsearch env ratio hf
    q query hq h2 hL
  obtain ⟨c, s'', e', hall⟩ := C35_best_of_representatives s₀ s L R hR hne hsearch env ratio hf q query hq h2 hL
  rw [e] at e'
  simp only [Prod.mk.injEq, Res.ok.injEq] at e'
  obtain ⟨rfl, rfl⟩ := e'
  refine ⟨x, v, s', e, ?_, ?_⟩
  · have hrow : (R.getD i []).length = L := by
      rw [List.getD_eq_getElem?_getD, List.getElem?_eq_getElem hi]
      exact HoldsReal.row hR _ (List.getElem_mem hi)
    have hlen : (((R.getD i []).drop b).take l).length = l := by
      rw [List.length_take, List.length_drop, hrow]
      omega
    obtain ⟨⟨D, d1, _, d2⟩, _⟩ := C07_warped_laws Rounding.exact ratio q (((R.getD i []).drop b).take l)
      (hf.fits _ (by omega)) (by omega) (by omega)
    rw [hx, Res.ok.injEq] at d1
    subst d1
    rcases d2 with d2 | ⟨x', d2, d3⟩
    · cases d2
    · rw [F.fin.injEq] at d3
      rw [d3]
      exact d2
  · intro l' ls hls k hk a ha w hw
    obtain ⟨a', p1, _, p2⟩ := hall l' ls hls k hk
    rw [repValues_unique p1 ha, hw] at p2
    exact (le_fin x w).mp p2

include hR hne hf₀ hf hst hq h2 hL in
/-- C55, in exact arithmetic, for data grouped by the Euclidean distance with threshold `st`: the distance of the
answer exceeds the warped distance between the query and any sub-series of any length by at most `st / 2`
scaled by `√((2 r + 1) l) / (2 max(m, l))`, where `l` is the length of the sub-series, `m` that of the query and `r`
the band for the two. -/
theorem C55_near_best (h : s₀.groupAllLengths env₀ "euclidean" (F.fin st) = (.ok n, s₁)) (hs : Matches L s₁ s) :
    ∃ x v s', s.getBestMatch env query = (.ok { ts := v, dist := F.fin x }, s') ∧ 0 ≤ x ∧
      ∀ i b l, i < R.length → 2 ≤ l → b + l ≤ L → ∀ w, warped ratio q (((R.getD i []).drop b).take l) = F.fin w →
        x ≤ w + Real.sqrt ((2 * bandSize ratio (max q.length l) + 1) * l) * (st / 2) / (2 * max (q.length : ℝ) l) := by
  obtain ⟨x, v, s', e, hx, hall⟩ := answer_le s₀ s₁ s L R hR hne env₀ env ratio₀ ratio hf₀ hf n q query hq h2 hL h hs
  refine ⟨x, v, s', e, hx, ?_⟩
  intro i b l hi hl hb w hw
  obtain ⟨ls, g1, k, hk, rep, r1, r2, r3, y, y1, y2⟩ := rep_of_window s₀ s₁ s L R hR env₀ ratio₀ hf₀ st hst n .euclidean h hs
    i b l hi hl hb
  rw [F.fin.injEq] at y1
  obtain ⟨u, u1, u2⟩ := warped_triangle ratio q rep _ (by rw [r2, r3]) (by omega) hw
  refine (hall l ls g1 k hk rep r1 u u1).trans (u2.trans ?_)
  rw [r3, rms_comm _ _ (by rw [r2, r3]), y1]
  gcongr

include hR hne hf₀ hf hst hq h2 hL in
/-- C55 for sub-series of the length of the query, where no band enters: the distance of the answer is at most the Euclidean
distance to any of them plus `st / 2`, divided by twice the root of the length (the code's warped distance is scaled so). -/
theorem C55_near_equal_length (h : s₀.groupAllLengths env₀ "euclidean" (F.fin st) = (.ok n, s₁)) (hs : Matches L s₁ s) :
    ∃ x v s', s.getBestMatch env query = (.ok { ts := v, dist := F.fin x }, s') ∧ 0 ≤ x ∧
      ∀ i b, i < R.length → b + q.length ≤ L →
        x ≤ (rms q (((R.getD i []).drop b).take q.length) + st / 2) / (2 * Real.sqrt q.length) := by
  obtain ⟨x, v, s', e, hx, hall⟩ := answer_le s₀ s₁ s L R hR hne env₀ env ratio₀ ratio hf₀ hf n q query hq h2 hL h hs
  refine ⟨x, v, s', e, hx, ?_⟩
  intro i b hi hb
  obtain ⟨ls, g1, k, hk, rep, r1, r2, r3, y, y1, y2⟩ := rep_of_window s₀ s₁ s L R hR env₀ ratio₀ hf₀ st hst n .euclidean h hs
    i b q.length hi h2 hb
  rw [F.fin.injEq] at y1
  obtain ⟨u, u1, u2⟩ := warped_le_rms ratio q rep r2.symm (by omega)
  refine (hall _ ls g1 k hk rep r1 u u1).trans (u2.trans ?_)
  gcongr
  refine (rms_triangle q _ rep r3.symm).trans ?_
  rw [rms_comm _ rep (by rw [r2, r3]), y1]
  linarith

include hR hne hf₀ hf hst hq h2 hL in
/-- C55 for a query that is in the data, for either distance and a search band no narrower than that of the
grouping: the answer is within half the threshold. With threshold 0 its distance is therefore 0. -/
theorem C55_known_series {name : String} (hname : name = "euclidean" ∨ name = "euclidean_dtw") (hr : ratio₀ ≤ ratio)
    (h : s₀.groupAllLengths env₀ name (F.fin st) = (.ok n, s₁)) (hs : Matches L s₁ s)
    (i b : Nat) (hi : i < R.length) (hb : b + q.length ≤ L) (hwin : q = ((R.getD i []).drop b).take q.length) :
    ∃ x v s', s.getBestMatch env query = (.ok { ts := v, dist := F.fin x }, s') ∧ 0 ≤ x ∧ x ≤ st / 2 := by
  obtain ⟨x, v, s', e, hx, hall⟩ := answer_le s₀ s₁ s L R hR hne env₀ env ratio₀ ratio hf₀ hf n q query hq h2 hL h hs
  refine ⟨x, v, s', e, hx, ?_⟩
  rcases hname with rfl | rfl
  · obtain ⟨ls, g1, k, hk, rep, r1, r2, r3, y, y1, y2⟩ := rep_of_window s₀ s₁ s L R hR env₀ ratio₀ hf₀ st hst n .euclidean h hs
      i b q.length hi h2 hb
    rw [← hwin, F.fin.injEq] at y1
    obtain ⟨u, u1, u2⟩ := warped_le_rms ratio q rep r2.symm (by omega)
    refine (hall _ ls g1 k hk rep r1 u u1).trans (u2.trans ?_)
    rw [rms_comm _ _ r2.symm, y1]
    have hq1 : (1 : ℝ) ≤ Real.sqrt q.length := by
      rw [Real.one_le_sqrt]
      exact_mod_cast (by omega : 1 ≤ q.length)
    rw [div_le_iff₀ (by positivity)]
    nlinarith
  · obtain ⟨ls, g1, k, hk, rep, r1, r2, r3, y, y1, y2⟩ := rep_of_window s₀ s₁ s L R hR env₀ ratio₀ hf₀ st hst n .dtw h hs
      i b q.length hi h2 hb
    rw [← hwin] at y1
    obtain ⟨u, u1, u2⟩ := warped_wider hr rep q y1
    have hrr : RatioFits ratio rep q := ⟨(hf.fits 0 (by omega)).nonneg, (hf.fits _ (by omega)).range⟩
    rw [← wrd_eq_warped ratio rep q hrr.ok (by omega) h2, wrd_comm,
      wrd_eq_warped ratio q rep (by rw [max_comm]; exact hrr.ok) h2 (by omega)] at u1
    exact (hall _ ls g1 k hk rep r1 u u1).trans (u2.trans y2)

end near

/-! ## A query that is in the data need not be found -/

section three

theorem Three.holds : Three.ds.Holds 2 ([[0, 0], [2, 2], [3, 3]].map fins) := by
  refine ⟨?_, rfl, rfl, [], by simp [Three.ds, fins]⟩
  intro r hr
  simp only [List.map_cons, List.map_nil, List.mem_cons, List.not_mem_nil, or_false] at hr
  rcases hr with rfl | rfl | rfl <;> rfl

theorem fit0 {env : Env XF} (hr : env.ratio = F.fin 0) (L : Nat) : FitEnv env L 0 :=
  ⟨hr, ratioOk_of (le_refl _) (by simp)⟩

theorem warped0 (x y u v : ℝ) :
    warped 0 [x, y] [u, v] = F.fin (Real.sqrt ((x - u) * (x - u) + (y - v) * (y - v)) / 4) := by
  have hr : RatioOk Rounding.exact 0 2 := ratioOk_of (le_refl _) (by norm_num) 2 (le_refl _)
  rw [← wrd_eq_warped 0 [x, y] [u, v] hr (by simp) (by simp)]
  have h1 := warped_two x y u v
  rw [warped_inf hr (by simp) (by simp), Res.ok.injEq] at h1
  exact h1

/-- C55 is sharp in this sense: the bound `st / 2` for a query that is in the data cannot be replaced by 0. The data are `[0, 0]`,
`[2, 2]` and `[3, 3]`, grouped with threshold 4: the query `[2, 2]` is answered with `[3, 3]`, at a
distance that is not 0, because `[2, 2]` itself is in the group of `[0, 0]`, which is further away. -/
theorem C55_not_exact_counterexample (env : Env XF) (hr : env.ratio = F.fin 0) (hl : ∀ i, env.doLog i = false) :
    ∃ n s₁, GSet.groupAllLengths env "euclidean" (F.fin 4) ⟨Three.ds, none, none⟩ = (.ok n, s₁) ∧
      ∃ v x s', s₁.getBestMatch env (Series.mk' (fins [2, 2])) = (.ok { ts := v, dist := F.fin x }, s') ∧
        v.index = 2 ∧ v.start = 0 ∧ 0 < x := by
  refine ⟨2, _, Three.group_eq env hr hl, ?_⟩
  obtain ⟨l, ls, k, hk, a, vs, v, y, s', e, hv, ⟨gs, g1, g2⟩, ha, hvs, hmem, _, _, hall⟩ := C35_nearest_group ⟨Three.ds, none, none⟩
    Three.grouped 2 _ Three.holds (by simp) (.grouped (fit0 hr 2) (Three.group_eq env hr hl)) env 0 (fit0 hr 2) [2, 2]
    (Series.mk' (fins [2, 2])) (seriesOk_mk _) (by simp) (by simp)
  simp only [Three.grouped, Option.some.injEq] at g1
  subst g1
  have hl2 : l = 2 := by
    obtain ⟨i0, i1⟩ := vget_lt g2
    simp only [len, List.length_cons, List.length_nil] at i1
    rcases (by omega : l = 0 ∨ l = 1 ∨ l = 2) with rfl | rfl | rfl
    · simp [vget] at g2
    · simp [vget] at g2
    · rfl
  subst hl2
  have g3 : Three.ls = ls := by simpa [vget] using g2
  subst g3
  have hrep : ∀ {i : Int} {u w : ℝ} {g : Group XF} {b : List ℝ}, Three.ds.resolve (Three.view i) = .ok (fins [u, w]) →
      g.centroid = { src := .view (Three.view i), cache := none } → RepValues Three.grouped.ds g b → b = [u, w] := by
    intro i u w g b h1 h2 h3
    refine repValues_unique h3 ⟨{ vals := fins [u, w], cache := none }, ?_, rfl⟩
    rw [h2]
    simp only [Cent.resolve, Three.grouped]
    rw [h1]
    rfl
  have hk2 : k < 2 := hk
  rcases (by omega : k = 0 ∨ k = 1) with rfl | rfl
  · exfalso
    have ea := hrep Three.res0 rfl ha
    obtain ⟨a', h1, h2⟩ := hall 2 Three.ls ⟨_, rfl, g2⟩ 1 (by decide)
    have eb := hrep Three.res2 rfl h1
    rw [ea, eb, warped0, warped0, le_fin] at h2
    have h3 : Real.sqrt ((2 - 3) * (2 - 3) + (2 - 3) * (2 - 3)) < Real.sqrt ((2 - 0) * (2 - 0) + (2 - 0) * (2 - 0)) :=
      Real.sqrt_lt_sqrt (by norm_num) (by norm_num)
    exact absurd h2 (not_le.mpr (div_lt_div_of_pos_right h3 (by norm_num)))
  · have e1 : vs = [Three.view 2] := by
      have : Group.getMembers Three.grouped.ds Three.ls.groups[1] Three.ls.memberMap = .ok [Three.view 2] := by
        simp [Group.getMembers, Three.ls, Group.membersLoop, Three.grouped, vget, Dataset.getTimeSeries, Three.ds, Three.view]
      exact Res.ok.inj (hvs.symm.trans this)
    rw [e1, List.mem_singleton] at hmem
    subst hmem
    have e2 : y = [3, 3] := by
      have : SubValues Three.grouped.ds (Three.view 2) [3, 3] := Three.res2
      unfold SubValues at hv this
      rw [this, Res.ok.injEq] at hv
      exact (fins_inj hv).symm
    rw [e2, warped0] at e
    refine ⟨_, _, _, e, rfl, rfl, ?_⟩
    have : 0 < Real.sqrt ((2 - 3) * (2 - 3) + (2 - 3) * (2 - 3) : ℝ) := Real.sqrt_pos.mpr (by norm_num)
    positivity

/-- A case for the theorems above: the same data, after one match. The answer to `[2, 2]` is within 2, and the bound
for the sub-series `[3, 3]` is the distance to it plus `√2 / 2`. -/
example (env : Env XF) (hr : env.ratio = F.fin 0) (hl : ∀ i, env.doLog i = false) :
    ∃ s₁ c s₂, GSet.groupAllLengths env "euclidean" (F.fin 4) ⟨Three.ds, none, none⟩ = (.ok 2, s₁) ∧
      s₁.getBestMatch env (Series.mk' (fins [1, 5])) = (.ok c, s₂) ∧
      ∃ x v s₃, s₂.getBestMatch env (Series.mk' (fins [2, 2])) = (.ok { ts := v, dist := F.fin x }, s₃) ∧ x ≤ 2 ∧
        x ≤ Real.sqrt 2 / 4 + Real.sqrt 2 / 2 := by
  have h := Three.group_eq env hr hl
  obtain ⟨_, _, _, _, _, s₂, e, _⟩ := C33_match_is_real ⟨Three.ds, none, none⟩ Three.grouped 2 _ Three.holds (by simp)
    (.grouped (fit0 hr 2) h) env 0 (fit0 hr 2) [1, 5] (Series.mk' (fins [1, 5])) (seriesOk_mk _) (by simp) (by simp)
  have hs : Matches 2 Three.grouped s₂ := .more .none (fit0 hr _) (seriesOk_mk _) e
  obtain ⟨x, v, s₃, e1, _, h1⟩ := C55_known_series ⟨Three.ds, none, none⟩ Three.grouped s₂ 2 _ Three.holds (by simp) env env 0 0
    (fit0 hr 2) (fit0 hr 2) 4 (by norm_num) 2 [2, 2] (Series.mk' (fins [2, 2])) (seriesOk_mk _) (by simp) (by simp)
    (Or.inl rfl) (le_refl _) h hs 1 0 (by simp) (by simp) (by simp)
  obtain ⟨x', v', s₃', e2, _, h2⟩ := C55_near_best ⟨Three.ds, none, none⟩ Three.grouped s₂ 2 _ Three.holds (by simp) env env 0 0
    (fit0 hr 2) (fit0 hr 2) 4 (by norm_num) 2 [2, 2] (Series.mk' (fins [2, 2])) (seriesOk_mk _) (by simp) (by simp) h hs
  rw [e1] at e2
  simp only [Prod.mk.injEq, Res.ok.injEq, Cand.mk.injEq, F.fin.injEq] at e2
  obtain ⟨⟨rfl, rfl⟩, rfl⟩ := e2
  refine ⟨_, _, s₂, h, e, x, v, s₃, e1, by linarith, ?_⟩
  have h3 := h2 2 0 2 (by simp) (by simp) (by simp) _ (warped0 2 2 3 3)
  norm_num [bandSize] at h3
  linarith

end three

end Onex
