import Verif.Spec.Answer
import Verif.Proofs.TraverseOrder
import Verif.Props.Leader
import Verif.Props.NearBest

/-!
# C60: which window a search answers with
-/

namespace Onex
open DataT Spec

/-- The groups just made, ready to be searched. -/
theorem lead_searchOk {env : Env XF} {ratio : ℝ} {s s' : GSet XF} {L : Nat} {R : List (List ℝ)}
    (hR : s.ds.Holds L (R.map fins)) (hne : R ≠ []) (hf : FitEnv env L ratio) {name : String} {D}
    (hD : EqualDist ratio name D) {st : ℝ} {n : Int} (h : s.groupAllLengths env name (F.fin st) = (.ok n, s')) :
    s'.ds = s.ds ∧ ∃ gs G, s'.groups = some gs ∧ SearchOk s.ds L gs.locals G (fun l => leads R l (G l)) ∧
      ∀ l : Int, 2 ≤ l → l ≤ L →
        Leader (fun c c' => D (subVals R l c) (subVals R l c')) (st / 2) (subOrder R.length (L - l + 1).toNat) (G l) := by
  obtain ⟨a1, _, gs, dn, a3, _, a5, a6⟩ := groupAllLengths_ok h
  obtain ⟨W, hW, hWD⟩ := equal_named hD
  have key : ∀ l : Int, ∃ M, 2 ≤ l → l ≤ L → ∃ ls, vget gs.locals l = .ok (some ls) ∧ LocalOk s.ds l ls M (leads R l M) ∧
      Leader (fun c c' => D (subVals R l c) (subVals R l c')) (st / 2) (subOrder R.length (L - l + 1).toNat) M := by
    intro l
    by_cases hl : 2 ≤ l ∧ l ≤ L
    · obtain ⟨ls, b1, b2⟩ := a6.at_ l hl.1 (by rw [hR.itemLength]; exact hl.2)
      obtain ⟨dn', dom, hdn, hh, hd⟩ := named_honest hW hl.1 (hf.fits l.toNat (by omega))
      rw [a5, Res.ok.injEq] at hdn
      subst hdn
      obtain ⟨dn', hdn', _, _, h3⟩ := groupsOf_grouped h ⟨gs, a3, b2⟩
      rw [a5, Res.ok.injEq] at hdn'
      subst hdn'
      obtain ⟨ls0, e1, e2⟩ := Res.bind_eq_ok.mp h3
      rw [hf.eq] at e2
      obtain ⟨ls', e3, M, hi⟩ := generate_lead hR (by omega) hh
        (fun a b ha hb => ⟨(hd a b ha hb).1, hWD a b (hd a b ha hb).2.1⟩) (half_fin _ st) e1
      rw [e2, Res.ok.injEq] at e3
      subst e3
      have hne' := hi.leader.nonempty
      refine ⟨M, fun _ _ => ⟨ls, b2, ⟨hi.space, hi.cents, ?_, hne', ?_⟩, ?_⟩⟩
      · intro a ha
        obtain ⟨g, hg, rfl⟩ := List.mem_map.mp ha
        obtain ⟨k, hk, rfl⟩ := List.getElem_of_mem hg
        refine (resolve_sub hR (by omega) ((hi.space.inv k (by rw [hi.space.card]; exact hk) hk).subs _ ?_)).2
        rw [List.getLastD_eq_getLast?, List.getLast?_eq_getLast_of_ne_nil (hne' _ hg), Option.getD_some]
        exact List.getLast_mem _
      · have : ((0 : Int), (0 : Int)) ∈ M.flatten := by
          rw [hi.seen, mem_subOrder]
          have := List.length_pos_iff.mpr hne
          rw [hR.itemLength]
          simp only
          omega
        rcases M with _ | ⟨m, M⟩
        · simp at this
        · simp
      · have := hi.leader
        rwa [hR.itemLength] at this
    · exact ⟨[], fun h1 h2 => absurd ⟨h1, h2⟩ hl⟩
  choose G hkey using key
  refine ⟨a1, gs, G, a3, ⟨by rw [a6.size, hR.itemLength], ?_, ?_⟩, ?_⟩
  · intro l h1 h2
    obtain ⟨ls, c1, c2, _⟩ := hkey l h1 h2
    exact ⟨ls, c1, c2⟩
  · intro l h1 h2 h3
    exact a6.short l h1 h2 (by rw [hR.itemLength]; exact h3)
  · intro l h1 h2
    obtain ⟨_, _, _, c⟩ := hkey l h1 h2
    exact c

/-- Matches keep the groups searchable. -/
theorem Spec.Matches.searchOk {ρ : Rounding} {L : Nat} {s₁ s : GSet (F ρ)} (h : Matches L s₁ s) {R : List (List ℝ)}
    (hR : s₁.ds.Holds L (R.map fins)) {gs : GlobalSpace (F ρ)} (hg : s₁.groups = some gs) {MM AA}
    (hok : SearchOk s₁.ds L gs.locals MM AA) :
    s.ds = s₁.ds ∧ ∃ gs', s.groups = some gs' ∧ SearchOk s₁.ds L gs'.locals MM AA := by
  induction h with
  | none => exact ⟨rfl, gs, hg, hok⟩
  | @more s env ratio query q c s' hs hf hq h ih =>
    obtain ⟨hds, gs, hg, hok⟩ := ih
    rw [getBestMatch_of hf.eq hg] at h
    by_cases h1 : q.length ≤ 1
    · exfalso
      unfold GlobalSpace.getBestMatch at h
      rw [if_pos (by unfold Series.length; rw [hq.vals]; simp [len]; omega)] at h
      simp at h
    by_cases h2 : q.length ≤ L
    · obtain ⟨l, c', gs', order, k, hM, hA, e, _, _, _, hok', _⟩ := globalMatch_spec hR env.junk
        (hf.mono (by omega : L ≤ max L q.length)).fits hok (by omega : 2 ≤ q.length) h2 hq
      rw [hds, e] at h
      simp only [Prod.mk.injEq] at h
      obtain ⟨_, rfl⟩ := h
      exact ⟨rfl, gs', rfl, hok'⟩
    · exfalso
      obtain ⟨why, e⟩ := globalMatch_long (ds := s.ds) (gs := gs) env.junk (by omega : 2 ≤ q.length)
        (by have := hok.size; simp only [len] at this; omega)
        (hf.mono (by omega : q.length ≤ max L q.length)).fits hq
      rw [e] at h
      simp at h

/-- The answer, in any state whose representatives are the last members of the groups. -/
theorem answer_of {s : GSet XF} {L : Nat} {R : List (List ℝ)} (hR : s.ds.Holds L (R.map fins))
    {gs : GlobalSpace XF} {G : Int → List (List Coord)} (hg : s.groups = some gs)
    (hok : SearchOk s.ds L gs.locals G (fun l => leads R l (G l))) {env : Env XF} {ratio : ℝ} (hf : FitEnv env L ratio)
    {q : List ℝ} {query : Series XF} (hq : SeriesOk query q) (h2 : 2 ≤ q.length) (hL : q.length ≤ L) :
    ∃ l c s', s.getBestMatch env query =
        (.ok { ts := subView s.ds l c, dist := warped ratio q (subVals R l c) }, s') ∧
      Answer (fun l c => warped ratio q (subVals R l c)) G L q.length l c := by
  obtain ⟨l, c, gs', order, k, hM, hA, e, ⟨l2, lL⟩, hsub, hfin, hok', _, hord, hc, hbest, _, _, _, hfirst, _⟩ :=
    globalMatch_group hR env.junk hf.fits hok h2 hL hq
  have hrun := getBestMatch_of hf.eq hg (query := query)
  rw [e] at hrun
  simp only at hrun
  obtain ⟨b1, b2, pre, post, b3, b4⟩ := hbest (honest_cascade env.junk ratio)
  obtain ⟨earlier, later, o1, o2, o3⟩ := hfirst (honest_cascade env.junk ratio)
  have h0 : 0 ≤ ratio := (hf.fits 0 (by omega)).nonneg
  have hLr : (L : ℝ) * ratio < 2147483648 := (hf.fits L (le_refl _)).range
  have hnear := traverse_near hord
  obtain ⟨order', t1, _, _, t2, _⟩ := C32_traverse_order ratio q.length L h2 hL h0 hLr
  rw [hord, Res.ok.injEq] at t1
  subst t1
  obtain ⟨ls, hget, hlo⟩ := hok.at_ l l2 lL
  have hkg : k < ls.groups.length := by rw [hlo.cents.1]; exact hA
  have hinv := hlo.space.inv k hkg hM
  have hwr : ∀ b : List ℝ, 2 ≤ b.length → b.length ≤ L → wrd Rounding.exact ratio q b = warped ratio q b :=
    fun b hb hb' => wrd_eq_warped ratio q b (hf.fits _ (by omega)) h2 hb
  have hlen : ∀ c' ∈ (G l)[k], (subVals R l c').length = l.toNat :=
    fun c' hc' => (resolve_sub hR (by omega) (hinv.subs c' hc')).2
  -- the representatives
  have hrep : ∀ l' : Int, 2 ≤ l' → l' ≤ L → ∀ (k' : ℕ) (hk' : k' < (G l').length), ∀ a' ∈ (G l')[k'].getLast?,
      ∃ hkA : k' < (leads R l' (G l')).length, (leads R l' (G l'))[k'] = subVals R l' a' ∧
        (subVals R l' a').length = l'.toNat := by
    intro l' h1 h2 k' hk' a' ha'
    obtain ⟨ls', _, hlo'⟩ := hok.at_ l' h1 h2
    have hkA : k' < (leads R l' (G l')).length := by simpa [leads] using hk'
    have he : (leads R l' (G l'))[k'] = subVals R l' a' := by
      simp only [leads, List.getElem_map, List.getLastD_eq_getLast?]
      rw [Option.mem_def.mp ha', Option.getD_some]
    exact ⟨hkA, he, by rw [← he]; exact hlo'.lenA _ (List.getElem_mem hkA)⟩
  have hlast : (G l)[k].getLastD (0, 0) ∈ (G l)[k].getLast? := by
    rw [List.getLastD_eq_getLast?, List.getLast?_eq_getLast_of_ne_nil (hlo.full _ (List.getElem_mem hM)), Option.getD_some]
    rfl
  obtain ⟨_, ea, la⟩ := hrep l l2 lL k hM _ hlast
  have hcl := hlen c hc
  have hAfin : warped ratio q (subVals R l ((G l)[k].getLastD (0, 0))) ≠ F.pinf := by
    rw [← hwr _ (by omega) (by omega)]
    rw [wrd_comm] at hfin ⊢
    rw [Ne, wrd_finite_iff _ _ _ (by omega) h2] at hfin ⊢
    rw [hcl] at hfin
    rw [la]
    exact hfin
  refine ⟨l, c, _, by rw [hrun, hwr _ (by omega) (by omega)], ⟨l2, lL⟩, ?_, k, hM, (G l)[k].getLastD (0, 0), hlast, ?_, ?_, pre,
    post, b3, ?_⟩
  · simp only
    rw [← hwr _ (by omega) (by omega)]
    exact hfin
  · intro l' l2' lL' k' hk' a' ha'
    obtain ⟨hkA, ea', la'⟩ := hrep l' l2' lL' k' hk' a' ha'
    simp only
    by_cases hin : l' ∈ order
    · refine ⟨?_, ?_⟩
      · have hn := b2 l' hin _ (List.getElem_mem hkA)
        rw [ea, ea', wrd_comm, wrd_comm ratio (subVals R l _), hwr _ (by omega) (by omega), hwr _ (by omega) (by omega)] at hn
        exact hn
      · rintro (hb | ⟨rfl, hb⟩)
        · have hmem : l' ∈ earlier := by
            rw [o1] at hin hnear
            rcases List.mem_append.mp hin with hin | hin
            · exact hin
            exfalso
            rcases List.mem_cons.mp hin with rfl | hin
            · exact Nearer.irrefl hb
            · have := (List.pairwise_cons.mp (List.pairwise_append.mp hnear).2.1).1 l' hin
              exact Nearer.irrefl (this.trans hb)
          have hn := o2 l' hmem _ (List.getElem_mem hkA)
          rw [ea, ea', wrd_comm, wrd_comm ratio (subVals R l' _), hwr _ (by omega) (by omega), hwr _ (by omega) (by omega)] at hn
          exact hn
        · have hn := o3 k' hkA hb
          rw [ea, ea', wrd_comm, wrd_comm ratio (subVals R l' a'), hwr _ (by omega) (by omega), hwr _ (by omega) (by omega)] at hn
          exact hn
    · have hinf : warped ratio q (subVals R l' a') = F.pinf := by
        by_contra hcon
        exact hin ((t2 l').mpr ⟨⟨l2', lL'⟩, q, _, rfl, by omega, hcon⟩)
      have hlt : lt (warped ratio q (subVals R l ((G l)[k].getLastD (0, 0)))) F.pinf = true := by
        rw [← hwr _ (by omega) (by omega)] at hAfin ⊢
        rcases wrd_val (ρ := Rounding.exact) ratio q (subVals R l ((G l)[k].getLastD (0, 0))) (by omega) with e | ⟨x, _, e⟩
        · exact absurd e hAfin
        · rw [e, lt_iff]
          trivial
      rw [hinf]
      exact ⟨fun h => lt_asymm_F h hlt, fun _ => hlt⟩
  · intro c' hc'
    have := b1 c' hc'
    have := hlen c' hc'
    simp only
    rw [← hwr _ (by omega) (by omega), ← hwr _ (by omega) (by omega)]
    exact b1 c' hc'
  · intro c' hc'
    have := hlen c' (by rw [b3]; simp [hc'])
    simp only
    rw [← hwr _ (by omega) (by omega), ← hwr _ (by omega) (by omega)]
    exact b4 c' hc'

/-- C60: after grouping and any number of matches, the answer to a search in exact arithmetic. The groups are those of leader
clustering (C59). The lengths are taken in the order of their nearness to the length of the query, the shorter of two first. The
first group whose representative is nearest answers, with the first of its nearest members, members added last being first. The
distance is that of the window. -/
theorem C60_answer (s₀ s₁ s : GSet XF) (L : Nat) (R : List (List ℝ)) (hR : s₀.ds.Holds L (R.map fins)) (hne : R ≠ [])
    (env₀ env : Env XF) (ratio₀ ratio : ℝ) (hf₀ : FitEnv env₀ L ratio₀) (hf : FitEnv env L ratio) {name : String} {D}
    (hD : EqualDist ratio₀ name D) (st : ℝ) (n : Int) (h : s₀.groupAllLengths env₀ name (F.fin st) = (.ok n, s₁))
    (hs : Matches L s₁ s) (q : List ℝ) (query : Series XF) (hq : SeriesOk query q) (h2 : 2 ≤ q.length) (hL : q.length ≤ L) :
    ∃ (G : Int → List (List Coord)) (l : Int) (c : Coord) (s' : GSet XF),
      s.getBestMatch env query = (.ok { ts := subView s.ds l c, dist := warped ratio q (subVals R l c) }, s') ∧
      (∀ l : Int, 2 ≤ l → l ≤ L →
        Leader (fun c c' => D (subVals R l c) (subVals R l c')) (st / 2) (subOrder R.length (L - l + 1).toNat) (G l)) ∧
      Answer (fun l c => warped ratio q (subVals R l c)) G L q.length l c := by
  obtain ⟨e1, gs, G, e2, hok, hG⟩ := lead_searchOk hR hne hf₀ hD h
  rw [← e1] at hR hok
  obtain ⟨e3, gs', e4, hok'⟩ := hs.searchOk hR e2 hok
  rw [← e3] at hR hok'
  obtain ⟨l, c, s', e5, ha⟩ := answer_of hR e4 hok' hf hq h2 hL
  exact ⟨G, l, c, s', e5, hG, ha⟩

/-- C60: there is at most one such window, so the above determines the answer. -/
theorem C60_answer_unique (w : Int → Coord → XF) (G G' : Int → List (List Coord)) (L : ℕ) (q l l' : Int) (c c' : Coord)
    (hG : ∀ l : Int, 2 ≤ l → l ≤ L → G l = G' l) (h : Answer w G L q l c) (h' : Answer w G' L q l' c') : l = l' ∧ c = c' := by
  obtain ⟨⟨l2, lL⟩, _, k, hk, a, ha, h1, h2, pre, post, h3, h4⟩ := h
  obtain ⟨⟨l2', lL'⟩, _, k', hk', a', ha', h1', h2', pre', post', h3', h4'⟩ := h'
  obtain ⟨p1, p2⟩ := h1 l' l2' lL' k' (by rw [hG l' l2' lL']; exact hk') a' (by simpa only [hG l' l2' lL'] using ha')
  obtain ⟨q1, q2⟩ := h1' l l2 lL k (by rw [← hG l l2 lL]; exact hk) a (by simpa only [← hG l l2 lL] using ha)
  have hl : l = l' := by
    rcases Nearer.total (q := q) (a := l) (b := l') with hn | e | hn
    · exact absurd (q2 (Or.inl hn)) p1
    · exact e
    · exact absurd (p2 (Or.inl hn)) q1
  subst hl
  have hkk : k = k' := by
    rcases lt_trichotomy k k' with hn | e | hn
    · exact absurd (q2 (Or.inr ⟨rfl, hn⟩)) p1
    · exact e
    · exact absurd (p2 (Or.inr ⟨rfl, hn⟩)) q1
  subst hkk
  refine ⟨rfl, ?_⟩
  have hGG : (G l)[k] = (G' l)[k] := by simp only [hG l l2 lL]
  have hc : c ∈ (G' l)[k] := by rw [← hGG, h3]; simp
  have hc' : c' ∈ (G l)[k] := by rw [hGG, h3']; simp
  rw [h3, h3'] at hGG
  rcases List.append_eq_append_iff.mp hGG with ⟨m, e1, e2⟩ | ⟨m, e1, e2⟩
  · cases m with
    | nil => exact (List.cons.inj e2).1
    | cons x m =>
      simp only [List.cons_append, List.cons.injEq] at e2
      obtain ⟨rfl, _⟩ := e2
      exact absurd (h4' c (by rw [e1]; simp)) (h2 c' hc')
  · cases m with
    | nil => exact (List.cons.inj e2).1.symm
    | cons x m =>
      simp only [List.cons_append, List.cons.injEq] at e2
      obtain ⟨rfl, _⟩ := e2
      exact absurd (h4 c' (by rw [e1]; simp)) (h2' c hc)

/-- A case: `[0, 0]`, `[2, 2]` and `[3, 3]`, grouped with threshold 4, so that `[2, 2]` is in the group of `[0, 0]`. Both are as near
to `[1, 1]`; the answer is `[2, 2]`, which was added last. -/
example (env : Env XF) (hr : env.ratio = F.fin 0) (hl : ∀ i, env.doLog i = false) :
    ∃ n s₁, GSet.groupAllLengths env "euclidean" (F.fin 4) ⟨Three.ds, none, none⟩ = (.ok n, s₁) ∧
      ∃ v x s', s₁.getBestMatch env (Series.mk' (fins [1, 1])) = (.ok { ts := v, dist := x }, s') ∧
        v.index = 1 ∧ v.start = 0 ∧ v.stop = 2 := by
  have h := Three.group_eq env hr hl
  refine ⟨2, _, h, ?_⟩
  obtain ⟨G, l, c, s', e, hG, ha⟩ := C60_answer ⟨Three.ds, none, none⟩ Three.grouped Three.grouped 2 _ Three.holds (by simp) env env
    0 0 (fit0 hr 2) (fit0 hr 2) .euclidean 4 2 h .none [1, 1] (Series.mk' (fins [1, 1])) (seriesOk_mk _) (by simp) (by simp)
  set R : List (List ℝ) := [[0, 0], [2, 2], [3, 3]] with hRdef
  have r02 : rms [0, 0] [2, 2] = 2 := by
    rw [rms, Real.sqrt_eq_iff_mul_self_eq (by positivity) (by norm_num)]
    norm_num [Finset.sum_range_succ]
  have r03 : rms [0, 0] [3, 3] = 3 := by
    rw [rms, Real.sqrt_eq_iff_mul_self_eq (by positivity) (by norm_num)]
    norm_num [Finset.sum_range_succ]
  have hG' : Leader (fun c c' => rms (subVals R 2 c) (subVals R 2 c')) (4 / 2) ([] ++ [(0, 0)] ++ [(1, 0)] ++ [(2, 0)])
      (((([] : List (List Coord)) ++ [[(0, 0)]]).set 0 [(1, 0), (0, 0)]) ++ [[(2, 0)]]) := by
    refine .found (.join (cs := [] ++ [(0, 0)]) (G := [] ++ [[(0, 0)]]) (.found .nil (by simp)) 0 (by simp) (0, 0) (by simp) ?_ ?_) ?_
    · simp [subVals, R, r02]
      norm_num
    · intro j hj b hb
      simp only [List.nil_append, List.length_singleton, Nat.lt_one_iff] at hj
      subst hj
      simp only [List.nil_append, List.getElem_cons_zero, List.getLast?_singleton, Option.mem_some_iff] at hb
      subst hb
      simp
    · simp [subVals, R, r03]
      norm_num
  have hGG := (hG 2 (by norm_num) (by norm_num)).unique hG'
  have hG2 : G 2 = [[(1, 0), (0, 0)], [(2, 0)]] := by rw [hGG]; rfl
  have w0 : warped 0 [1, 1] (subVals R 2 (0, 0)) = F.fin (Real.sqrt 2 / 4) := by
    have := warped0 1 1 0 0
    norm_num at this
    simpa [subVals, R] using this
  have w1 : warped 0 [1, 1] (subVals R 2 (1, 0)) = F.fin (Real.sqrt 2 / 4) := by
    have := warped0 1 1 2 2
    norm_num at this
    simpa [subVals, R] using this
  have w2 : warped 0 [1, 1] (subVals R 2 (2, 0)) = F.fin (Real.sqrt 8 / 4) := by
    have := warped0 1 1 3 3
    norm_num at this
    simpa [subVals, R] using this
  have hlt : Real.sqrt 2 / 4 < Real.sqrt 8 / 4 := div_lt_div_of_pos_right (Real.sqrt_lt_sqrt (by norm_num) (by norm_num)) (by norm_num)
  have hans : Answer (fun l c => warped 0 [1, 1] (subVals R l c)) G 2 2 2 (1, 0) := by
    refine ⟨⟨le_refl _, le_refl _⟩, by simp [w1], 0, by simp [hG2], (0, 0), by simp [hG2], ?_, ?_, [], [(0, 0)], by simp [hG2], by simp⟩
    · intro l' h1 h2 k' hk' a' ha'
      obtain rfl : l' = 2 := by omega
      simp only [hG2, List.length_cons, List.length_nil] at hk'
      rcases (by omega : k' = 0 ∨ k' = 1) with rfl | rfl
      · simp only [hG2, List.getElem_cons_zero, List.getLast?_cons_cons, List.getLast?_singleton, Option.mem_some_iff] at ha'
        subst ha'
        simp only [w0]
        exact ⟨not_lt_self_F _, fun h => absurd h (by simp [Nearer])⟩
      · simp only [hG2, List.getElem_cons_succ, List.getElem_cons_zero, List.getLast?_singleton, Option.mem_some_iff] at ha'
        subst ha'
        simp only [w0, w2, lt_iff]
        exact ⟨not_lt.mpr hlt.le, fun _ => hlt⟩
    · intro c' hc'
      simp only [hG2, List.getElem_cons_zero, List.mem_cons, List.not_mem_nil, or_false] at hc'
      rcases hc' with rfl | rfl <;> simp only [w0, w1] <;> exact not_lt_self_F _
  obtain ⟨rfl, rfl⟩ := C60_answer_unique _ G G 2 2 _ 2 _ (1, 0) (fun _ _ _ => rfl) ha hans
  exact ⟨_, _, _, e, rfl, rfl, rfl⟩

end Onex
