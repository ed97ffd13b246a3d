import Verif.Proofs.Moved
import Verif.Props.Unaffected
import Verif.Props.NearBest

/-!
# C56: groups moved through a file answer as before
-/

namespace Onex
open DataT Spec

section any
variable {α : Type} [DataT α]

omit [DataT α] in
theorem sameOutcome_of {x y : Res (Cand α)} (h : RR (fun c c' => c.dist = c'.dist ∧ SameWin c.ts c'.ts) x y) :
    SameOutcome x y := by
  cases h with
  | ok h => exact h
  | throw e => exact rfl
  | ub w => exact rfl

/-- Two states that carry the same groups with the members in the same order. -/
theorem Carry.same {P : α → Prop} {L : Nat} (hL : 1 ≤ L) {R : List (List α)} {CC : Int → List (Content α)}
    {s t : GSet α} (hs : Carry P L R CC s) (ht : Carry P L R CC t) {env env' : Env α} (he : env'.ratio = env.ratio)
    (hb : BandNN env.ratio) (x : List α) :
    SameOutcome (s.getBestMatch env (Series.mk' x)).1 (t.getBestMatch env' (Series.mk' x)).1 := by
  obtain ⟨hR, _, s₀, gs, a1, a2, a3, a4, a5⟩ := hs
  obtain ⟨hR', _, t₀, gt, b1, b2, b3, b4, b5⟩ := ht
  rw [(a5.match_ (by rw [a2]; exact holds_windows hR hL) (env := env) (env' := env) rfl hb x).1,
    (b5.match_ (by rw [b2]; exact holds_windows hR' hL) (env := env') (env' := env') rfl (by rw [he]; exact hb) x).1]
  refine sameOutcome_of ?_
  have key := a3.match2 hR hR' b3 a4 b4 hb env.junk env'.junk x
  unfold GSet.getBestMatch
  rw [a1, b1, a2, b2, he]
  simp only
  generalize gs.getBestMatch env.junk env.ratio s.ds (Series.mk' x) = u at key ⊢
  generalize gt.getBestMatch env'.junk env.ratio t.ds (Series.mk' x) = v at key ⊢
  cases key with
  | ok k => exact .ok k
  | throw e => exact .throw e
  | ub w => exact .ub w

/-- C56, for every number type: two sets that have the groups of one grouping, moved through files an even number of times
(or both an odd number of times) and searched in any way in between, answer every search alike: the same window at the
same distance, or the same failure. The datasets only need to hold the same rows; printing and reading must give the
stored numbers back. -/
theorem C56_moved_twice {P : α → Prop} {rt6 : α → α} (io : NumIO α) (hio : IOok io P id rt6) (s s₁ : GSet α) (L : Nat)
    (R : List (List α)) (hR : s.ds.Holds L R) (hL : 1 ≤ L) (hfit : SizeOk R.length L) (hP : ∀ r ∈ R, ∀ v ∈ r, P v)
    (env₀ : Env α) (name : String) (th : α) (hth : P th) (n : Int) (h : s.groupAllLengths env₀ name th = (.ok n, s₁))
    (b : Bool) (t u : GSet α) (ht : Carried io L R s₁ b t) (hu : Carried io L R s₁ b u) (env env' : Env α)
    (he : env'.ratio = env.ratio) (hb : BandNN env.ratio) (x : List α) :
    SameOutcome (t.getBestMatch env (Series.mk' x)).1 (u.getBestMatch env' (Series.mk' x)).1 := by
  obtain ⟨CC, hc⟩ := grouped_carry hR hL hP hth h
  exact (carried_inv hio hL hfit hc ht).same hL (carried_inv hio hL hfit hc hu) he hb x

end any

/-! ## In exact arithmetic -/

section real
variable {ρ : Rounding}

theorem StoredAll.searchOk {P : F ρ → Prop} {ds : Dataset (F ρ)} {L : Nat} {locals : List (Option (LocalSpace (F ρ)))}
    {CC : Int → List (Content (F ρ))} (h : StoredAll P ds L locals CC) (hc : Clean locals) {AA : Int → List (List ℝ)}
    (hA : ∀ l : Int, 2 ≤ l → l ≤ L → (CC l).map Prod.fst = (AA l).map fins ∧ 0 < (CC l).length) :
    SearchOk ds L locals (fun l => (CC l).map Prod.snd) AA := by
  refine ⟨h.size, ?_, h.short⟩
  intro l l2 lL
  obtain ⟨ls, e, hs⟩ := h.at_ l l2 lL
  obtain ⟨a1, a2⟩ := hA l l2 lL
  have hlen : (CC l).length = (AA l).length := by simpa using congrArg List.length a1
  have hcard := hs.space.card
  simp only [List.length_map] at hcard
  have hk : ∀ (k : Nat) (h1 : k < (CC l).length) (h2 : k < (AA l).length), (CC l)[k].1 = fins (AA l)[k] := by
    intro k h1 h2
    have e1 : ((CC l).map Prod.fst)[k]? = ((AA l).map fins)[k]? := by rw [a1]
    simpa [h1, h2] using e1
  refine ⟨ls, e, hs.space, ⟨by omega, ?_⟩, ?_, ?_, by simpa using a2⟩
  · intro k h1 h2
    obtain ⟨c, c1, c2⟩ := hs.cent k h1 (by omega)
    refine ⟨c, c1, by rw [c2, hk], ?_⟩
    intro x hx
    rw [Cent.resolve_eq] at c1
    obtain ⟨y, _, c1⟩ := Res.bind_eq_ok.mp c1
    cases c1
    simp only at hx
    rw [hc ls (mem_of_vget e) _ (List.getElem_mem h1)] at hx
    cases hx
  · intro a ha
    obtain ⟨k, h2, rfl⟩ := List.getElem_of_mem ha
    have := hs.clen _ (List.getElem_mem (by omega : k < (CC l).length))
    rw [hk k (by omega) h2] at this
    simpa using this
  · intro m hm
    obtain ⟨x, hx, rfl⟩ := List.mem_map.mp hm
    exact hs.full x hx

/-- The representatives of a grouping of real numbers. -/
theorem grouped_reals {P : F ρ → Prop} {env : Env (F ρ)} {ratio : ℝ} {s s₁ : GSet (F ρ)} {L : Nat} {R : List (List ℝ)}
    (hR : s.ds.Holds L (R.map fins)) (hne : R ≠ []) (hf : FitEnv env L ratio) {name : String} {th : F ρ} {n : Int}
    (h : s.groupAllLengths env name th = (.ok n, s₁)) {CC : Int → List (Content (F ρ))}
    (hc : Carry P L (R.map fins) CC s₁) : ∃ AA : Int → List (List ℝ), ∀ (b : Bool) (l : Int), 2 ≤ l → l ≤ L →
      (turned b CC l).map Prod.fst = (AA l).map fins ∧ 0 < (turned b CC l).length := by
  obtain ⟨a1, gs, MM, AA, a2, hok, _⟩ := grouped_searchOk hf.eq hR hne hf.fits h
  obtain ⟨_, ⟨gs', _, _, b1, _, _, _, b5⟩, _⟩ := hc
  rw [a2] at b1
  cases b1
  refine ⟨AA, fun b l l2 lL => ?_⟩
  obtain ⟨ls, e1, k1⟩ := hok.at_ l l2 lL
  obtain ⟨ls', e2, k2⟩ := b5.at_ l l2 lL
  rw [e1] at e2
  cases e2
  have c1 := k1.cents.1
  have c2 := k2.space.card
  have c3 := k1.space.card
  have c4 := k1.some
  simp only [List.length_map] at c2
  rw [turned_fst]
  constructor
  · refine List.ext_getElem (by simp only [List.length_map]; omega) fun k h1 h2 => ?_
    simp only [List.length_map] at h1 h2
    obtain ⟨sc, d1, d2⟩ := k1.cents.2 k (by omega) h2
    obtain ⟨sc', d3, d4⟩ := k2.cent k (by omega) h1
    rw [a1, d1] at d3
    cases d3
    rw [List.getElem_map, List.getElem_map, ← d4, d2.vals]
  · have : ((turned b CC l).map Prod.fst).length = ((CC l).map Prod.fst).length := by rw [turned_fst]
    simp only [List.length_map] at this
    omega

theorem turned_mem (b : Bool) (CC : Int → List (Content (F ρ))) (l : Int) (k : Nat)
    (h : k < ((turned b CC l).map Prod.snd).length) (h' : k < (CC l).length) (c : Coord) :
    c ∈ ((turned b CC l).map Prod.snd)[k] ↔ c ∈ (CC l)[k].2 := by
  cases b <;> simp [turned]

/-- C56, in exact arithmetic: groups moved through files any number of times, searched in any way in between, answer every
query of real numbers at the distance at which the groups just made answer it, with a window of the same length. -/
theorem C56_same_distance {P : F Rounding.exact → Prop} {rt6 : F Rounding.exact → F Rounding.exact}
    (io : NumIO (F Rounding.exact)) (hio : IOok io P id rt6) (s s₁ : GSet (F Rounding.exact)) (L : Nat)
    (R : List (List ℝ)) (hR : s.ds.Holds L (R.map fins)) (hne : R ≠ []) (hfit : SizeOk R.length L)
    (hP : ∀ r ∈ R, ∀ v ∈ r, P (F.fin v)) (env₀ : Env (F Rounding.exact)) (ratio₀ : ℝ) (hf₀ : FitEnv env₀ L ratio₀)
    (name : String) (th : F Rounding.exact) (hth : P th) (n : Int) (h : s.groupAllLengths env₀ name th = (.ok n, s₁))
    (b b' : Bool) (t u : GSet (F Rounding.exact)) (ht : Carried io L (R.map fins) s₁ b t)
    (hu : Carried io L (R.map fins) s₁ b' u) (env env' : Env (F Rounding.exact)) (ratio : ℝ) (hf : FitEnv env L ratio)
    (hf' : FitEnv env' L ratio) (q : List ℝ) (h2 : 2 ≤ q.length) (hL : q.length ≤ L) :
    ∃ (x : ℝ) (v v' : View) (y y' : List ℝ) (t' u' : GSet (F Rounding.exact)),
      t.getBestMatch env (Series.mk' (fins q)) = (.ok { ts := v, dist := F.fin x }, t') ∧
      u.getBestMatch env' (Series.mk' (fins q)) = (.ok { ts := v', dist := F.fin x }, u') ∧
      SubValues t.ds v y ∧ SubValues u.ds v' y' ∧ v.length = v'.length ∧
      warped ratio q y = F.fin x ∧ warped ratio q y' = F.fin x := by
  have hL1 : 1 ≤ L := by omega
  have hP' : ∀ r ∈ R.map fins, ∀ v ∈ r, P v := by
    intro r hr v hv
    obtain ⟨r', h1, rfl⟩ := List.mem_map.mp hr
    obtain ⟨w, h2, rfl⟩ := List.mem_map.mp hv
    exact hP r' h1 w h2
  have hfitR : SizeOk (R.map (fins (ρ := Rounding.exact))).length L := by simpa using hfit
  obtain ⟨CC, hc⟩ := grouped_carry hR hL1 hP' hth h
  obtain ⟨AA, hAA⟩ := grouped_reals hR hne hf₀ h hc
  obtain ⟨hRt, _, t₀, gt, a1, a2, a3, a4, a5⟩ := carried_inv hio hL1 hfitR hc ht
  obtain ⟨hRu, _, u₀, gu, b1, b2, b3, b4, b5⟩ := carried_inv hio hL1 hfitR hc hu
  have hnn : BandNN (F.fin ratio : F Rounding.exact) := bandNN_F fun x hx => by
    cases hx
    exact (hf.fits 0 (by omega)).nonneg
  have o1 := a3.searchOk a4 (hAA b)
  have o2 := b3.searchOk b4 (hAA b')
  obtain ⟨l, c, gs', order, k, hM, hA, e1, ⟨l2, lL⟩, e3, e4, _, _, e7, e8, e9, s1, e10, e11, _⟩ :=
    globalMatch_group hRt env.junk hf.fits o1 h2 hL (seriesOk_mk q)
  obtain ⟨l', c', gs'', order', k', hM', hA', f1, ⟨l2', lL'⟩, f3, f4, _, _, f7, f8, f9, s2, f10, f11, _⟩ :=
    globalMatch_group hRu env'.junk hf'.fits o2 h2 hL (seriesOk_mk q)
  rw [e7] at f7
  cases f7
  have hsame := a3.search b3 (CC' := turned b' CC) (fun l => by rw [turned_fst, turned_fst]) a4 b4 hnn env.junk
    env'.junk (q := fins q) (by simp; omega) order
  rw [e10, f10] at hsame
  cases hsame with
  | ok hsame =>
    have hg := hsame.1
    rw [e11, f11] at hg
    simp only [Option.some.injEq, Prod.mk.injEq, Nat.cast_inj] at hg
    obtain ⟨rfl, rfl⟩ := hg
    have hkC : k < (CC l).length := by
      have := congrArg List.length (turned_fst b CC l)
      simp only [List.length_map] at this hM
      omega
    have m1 := (turned_mem b CC l k hM hkC c).mp e8
    have m2 := (turned_mem b' CC l k hM' hkC c').mp f8
    have g1 := (e9 (honest_cascade env.junk ratio)).1 c' ((turned_mem b CC l k hM hkC c').mpr m2)
    have g2 := (f9 (honest_cascade env'.junk ratio)).1 c ((turned_mem b' CC l k hM' hkC c).mpr m1)
    obtain ⟨r1, r2⟩ := resolve_sub hRt (by omega : 1 ≤ l) e3
    obtain ⟨r1', r2'⟩ := resolve_sub hRu (by omega : 1 ≤ l) f3
    rcases wrd_val (ρ := Rounding.exact) ratio q (subVals R l c) (by omega) with e' | ⟨x, _, hx⟩
    · exact absurd e' e4
    rcases wrd_val (ρ := Rounding.exact) ratio q (subVals R l c') (by omega) with e' | ⟨x', _, hx'⟩
    · exact absurd e' f4
    have hxx : x' = x := by
      rw [hx, hx', lt_iff] at g1 g2
      exact le_antisymm (not_lt.mp g2) (not_lt.mp g1)
    subst hxx
    have w1 := wrd_eq_warped ratio q (subVals R l c) (hf.fits _ (by omega)) h2 (by omega)
    have w2 := wrd_eq_warped ratio q (subVals R l c') (hf.fits _ (by omega)) h2 (by omega)
    have q1 := (a5.match_ (by rw [a2]; exact holds_windows hRt hL1) (env := env) (env' := env) rfl
      (by rw [hf.eq]; exact hnn) (fins q)).1
    have q2 := (b5.match_ (by rw [b2]; exact holds_windows hRu hL1) (env := env') (env' := env') rfl
      (by rw [hf'.eq]; exact hnn) (fins q)).1
    rw [getBestMatch_of hf.eq a1, a2, e1, hx] at q1
    rw [getBestMatch_of hf'.eq b1, b2, f1, hx'] at q2
    refine ⟨x', subView t.ds l c, subView u.ds l c', subVals R l c, subVals R l c',
      (t.getBestMatch env (Series.mk' (fins q))).2, (u.getBestMatch env' (Series.mk' (fins q))).2, Prod.ext q1 rfl,
      Prod.ext q2 rfl, r1, r1', ?_, by rw [← w1, hx], by rw [← w2, hx']⟩
    simp only [View.length, subView]
    omega

end real

/-! ## One move can change which of several equally near windows is returned -/

/-- Integers are printed and read back by `intIO`. -/
theorem intIO_int : IOok intIO (fun v => ∃ z : ℤ, v = F.fin (z : ℝ)) id id := by
  have h := intIO_ok
  have e : ∀ z : ℤ, intPart (F.fin (z : ℝ)) = F.fin (z : ℝ) := by
    intro z
    simp [intPart]
  refine ⟨?_, ?_, fun v hv => hv, ?_, ?_, fun v hv => hv⟩
  · rintro v ⟨z, rfl⟩
    exact h.word _ ⟨_, rfl⟩
  · rintro v ⟨z, rfl⟩ t
    rw [h.read _ ⟨_, rfl⟩, e]
    rfl
  · rintro v ⟨z, rfl⟩
    exact h.word6 _ ⟨_, rfl⟩
  · rintro v ⟨z, rfl⟩ t
    rw [h.read6 _ ⟨_, rfl⟩, e]
    rfl

theorem loaded_clean {α : Type} [DataT α] {env : Env α} {file : Option Text} {s s' : GSet α} {n : Int}
    (h : s.loadGroups env file = (.ok n, s')) {gs : GlobalSpace α} (hg : s'.groups = some gs) : Clean gs.locals := by
  obtain ⟨_, st, gs', a3, a4⟩ := loadGroups_ok h
  rw [hg] at a3
  cases a3
  exact fun ls hls g hgm => (globalLoad_lfit a4 ls hls g hgm).1

namespace Three

theorem rows_int : ∀ r ∈ [[0, 0], [2, 2], [3, 3]], ∀ v ∈ r, ∃ z : ℤ, (F.fin v : X) = F.fin (z : ℝ) := by
  intro r hr v hv
  simp only [List.mem_cons, List.not_mem_nil, or_false] at hr
  rcases hr with rfl | rfl | rfl <;> simp only [List.mem_cons, List.not_mem_nil, or_false, or_self] at hv <;> subst hv
  · exact ⟨0, by simp⟩
  · exact ⟨2, by simp⟩
  · exact ⟨3, by simp⟩

/-- The query `[1, 1]` is as near to `[0, 0]` as to `[2, 2]`; the answer is the one listed first. -/
theorem answer {s : GSet X} (hds : s.ds = ds) {gs : GlobalSpace X} {MM AA} (hg : s.groups = some gs)
    (hok : SearchOk ds 2 gs.locals MM AA) {ls : LocalSpace X} (hls : GroupsOf s 2 ls) (hlen : ls.groups.length = 2)
    (h0 : RepValues ds ls.groups[0] [0, 0]) (h1 : RepValues ds ls.groups[1] [3, 3]) {i j : Int}
    (hm : ls.groups[0].getMembers ds ls.memberMap = .ok [view i, view j])
    (hij : (i = 0 ∧ j = 1) ∨ (i = 1 ∧ j = 0)) {env : Env X} (hr : env.ratio = F.fin 0) :
    ∃ s', s.getBestMatch env (Series.mk' (fins [1, 1])) = (.ok { ts := view i, dist := F.fin (Real.sqrt 2 / 4) }, s') := by
  have hR : s.ds.Holds 2 ([[0, 0], [2, 2], [3, 3]].map fins) := by rw [hds]; exact holds
  rw [← hds] at hok h0 h1 hm
  obtain ⟨l, ls', k, hk, a, vs, v, y, s', e, hv, ⟨gs1, g1, g2⟩, ha, hvs, hmem, _, ⟨pre, post, hsplit, hpre⟩, hall⟩ :=
    nearest_group_of hR hg hok (fit0 hr 2) (seriesOk_mk [1, 1]) (by simp) (by simp)
  obtain ⟨gs2, g3, g4⟩ := hls
  rw [hg, Option.some.injEq] at g1 g3
  subst g1 g3
  have hl2 : l = 2 := by
    obtain ⟨i0, i1⟩ := vget_lt g2
    rw [hok.size] at i1
    by_contra hne
    rw [hok.short l i0 (by push_cast at i1; omega) (by push_cast at i1 ⊢; omega)] at g2
    simp at g2
  subst hl2
  rw [g4] at g2
  cases g2
  have w0 : warped 0 [1, 1] [0, 0] = F.fin (Real.sqrt 2 / 4) := by
    rw [warped0]
    norm_num
  have w2 : warped 0 [1, 1] [2, 2] = F.fin (Real.sqrt 2 / 4) := by
    rw [warped0]
    norm_num
  rcases (by omega : k = 0 ∨ k = 1) with rfl | rfl
  · rw [hm] at hvs
    cases hvs
    have val : ∀ (m : Int) (z : List ℝ), m = 0 ∨ m = 1 → SubValues s.ds (view m) z →
        warped 0 [1, 1] z = F.fin (Real.sqrt 2 / 4) := by
      intro m z hmm hz
      rw [hds] at hz
      unfold SubValues at hz
      rcases hmm with rfl | rfl
      · rw [res0, Res.ok.injEq] at hz
        rw [← fins_inj hz, w0]
      · rw [res1, Res.ok.injEq] at hz
        rw [← fins_inj hz, w2]
    have hi01 : i = 0 ∨ i = 1 := by omega
    have hj01 : j = 0 ∨ j = 1 := by omega
    have hpre0 : pre = [] := by
      cases pre with
      | nil => rfl
      | cons p pre =>
        exfalso
        simp only [List.cons_append, List.cons.injEq] at hsplit
        obtain ⟨y', hy', hlt⟩ := hpre p (by simp)
        rw [← hsplit.1] at hy'
        have hw : warped 0 [1, 1] y = F.fin (Real.sqrt 2 / 4) := by
          simp only [List.mem_cons, List.not_mem_nil, or_false] at hmem
          rcases hmem with rfl | rfl
          · exact val i y hi01 hv
          · exact val j y hj01 hv
        rw [hw, val i y' hi01 hy', lt_irrefl_F] at hlt
        cases hlt
    subst hpre0
    simp only [List.nil_append, List.cons.injEq] at hsplit
    rw [← hsplit.1] at e hv
    rw [val i y hi01 hv] at e
    exact ⟨s', e⟩
  · exfalso
    obtain ⟨a', k1, k2⟩ := hall 2 ls ⟨gs, hg, g4⟩ 0 (by omega)
    rw [repValues_unique ha h1, repValues_unique k1 h0, w0, warped0, le_fin] at k2
    have h3 : Real.sqrt 2 < Real.sqrt ((1 - 3) * (1 - 3) + (1 - 3) * (1 - 3)) :=
      Real.sqrt_lt_sqrt (by norm_num) (by norm_num)
    exact absurd k2 (not_le.mpr (div_lt_div_of_pos_right h3 (by norm_num)))

end Three

/-- Why C56 speaks of the distance only, or of an even number of moves: `[0, 0]` and `[2, 2]` share a group, and are equally near
to the query `[1, 1]`. Before the groups are saved, `[2, 2]` is returned; the loaded groups return `[0, 0]`. -/
theorem C56_one_move_counterexample (env : Env XF) (hr : env.ratio = F.fin 0) (hl : ∀ i, env.doLog i = false)
    (hio : env.io = intIO) :
    ∃ n s₁ text m t x v v' s' t', GSet.groupAllLengths env "euclidean" (F.fin 4) ⟨Three.ds, none, none⟩ = (.ok n, s₁) ∧
      s₁.saveGroups env true false = .ok text ∧ GSet.loadGroups env (some text) ⟨Three.ds, none, none⟩ = (.ok m, t) ∧
      s₁.getBestMatch env (Series.mk' (fins [1, 1])) = (.ok { ts := v, dist := x }, s') ∧
      t.getBestMatch env (Series.mk' (fins [1, 1])) = (.ok { ts := v', dist := x }, t') ∧
      v.index = 1 ∧ v'.index = 0 := by
  have hgrp := Three.group_eq env hr hl
  have hP : ∀ r ∈ ([[0, 0], [2, 2], [3, 3]].map fins : List (List XF)), ∀ v ∈ r, ∃ z : ℤ, v = F.fin (z : ℝ) := by
    intro r hr v hv
    obtain ⟨r', h1, rfl⟩ := List.mem_map.mp hr
    obtain ⟨w, h2, rfl⟩ := List.mem_map.mp hv
    exact Three.rows_int r' h1 w h2
  have hth : ∃ z : ℤ, (F.fin 4 : XF) = F.fin (z : ℝ) := ⟨4, by norm_num⟩
  have hio' : IOok env.io (fun v => ∃ z : ℤ, v = F.fin (z : ℝ)) id id := by rw [hio]; exact intIO_int
  have hsz : SizeOk ([[0, 0], [2, 2], [3, 3]].map fins : List (List XF)).length 2 := ⟨by norm_num, by norm_num, by norm_num⟩
  have hkept : Kept env.io (fun v => ∃ z : ℤ, v = F.fin (z : ℝ)) 3 2 Three.grouped :=
    .grouped Three.holds (by simp) hP hth hgrp
  obtain ⟨text, m, t, gs, gs', st, e1, e2, e3, _, _, e4, e5, _, _, e6, e7⟩ :=
    C38_reload env hio' 3 2 ⟨by norm_num, by norm_num, by norm_num⟩ Three.grouped hkept ⟨Three.ds, none, none⟩ rfl rfl
  simp only at e3
  obtain ⟨CC, hc⟩ := grouped_carry Three.holds (by norm_num) hP hth hgrp
  obtain ⟨AA, hAA⟩ := grouped_reals (R := [[0, 0], [2, 2], [3, 3]]) Three.holds (by simp) (fit0 hr 2) hgrp hc
  have hct := carried_inv hio' (by norm_num) hsz hc (.moved .made rfl e1 Three.holds e2)
  obtain ⟨_, ⟨gs1, _, _, c1, _, _, _, c5⟩, _⟩ := hc
  obtain ⟨_, ⟨gs2, _, _, d1, _, _, _, d5⟩, _⟩ := hct
  rw [e5] at d1
  cases d1
  have o1 := c5.searchOk (grouped_clean Three.holds (by norm_num) hgrp c1) (hAA false)
  have o2 := d5.searchOk (loaded_clean e2 e5) (hAA true)
  rw [e3] at o2
  have hls : GroupsOf Three.grouped 2 Three.ls := ⟨_, rfl, by simp [vget]⟩
  obtain ⟨ls', hls'⟩ := (e6 2).mp ⟨_, hls⟩
  obtain ⟨k1, k2⟩ := e7 2 Three.ls ls' hls hls'
  have hlen : ls'.groups.length = 2 := k1
  have r0 : RepValues Three.ds Three.ls.groups[0] [0, 0] := by
    refine ⟨{ vals := fins [0, 0], cache := none }, ?_, rfl⟩
    change (do let x ← Three.ds.resolve (Three.view 0); return _ : Res _) = _
    rw [Three.res0]
    rfl
  have r1 : RepValues Three.ds Three.ls.groups[1] [3, 3] := by
    refine ⟨{ vals := fins [3, 3], cache := none }, ?_, rfl⟩
    change (do let x ← Three.ds.resolve (Three.view 2); return _ : Res _) = _
    rw [Three.res2]
    rfl
  have copyRep : ∀ {g g' : Group XF} {mm mm' : List Membership} {a : List ℝ}, RepValues Three.ds g a →
      CopyOf id 2 Three.ds mm g Three.ds mm' g' → RepValues Three.ds g' a := by
    rintro g g' mm mm' a ⟨c, a1, a2⟩ ⟨⟨c1, c1', b1, b2, b3⟩, _, _⟩
    rw [a1] at b1
    cases b1
    exact ⟨c1', b2, by rw [b3, List.map_id, a2]⟩
  have m0 : Three.ls.groups[0].getMembers Three.ds Three.ls.memberMap = .ok [Three.view 1, Three.view 0] := by
    simp [Group.getMembers, Three.ls, Group.membersLoop, vget, Dataset.getTimeSeries, Three.ds, Three.view]
  have q0 := k2 0 (by decide) (by omega)
  have q1 := k2 1 (by decide) (by omega)
  have m0' : ls'.groups[0].getMembers Three.ds ls'.memberMap = .ok [Three.view 0, Three.view 1] := by
    obtain ⟨ms, b1, b2, _⟩ := q0.members
    have b1' : Three.ls.groups[0].getMembers Three.ds Three.ls.memberMap = .ok (ms.map (subView Three.ds 2)) := b1
    rw [m0, Res.ok.injEq] at b1'
    rw [b2, List.map_reverse]
    change Res.ok (ms.map (subView Three.ds 2)).reverse = _
    rw [← b1']
    rfl
  obtain ⟨s', f1⟩ := Three.answer (s := Three.grouped) rfl c1 o1 hls rfl r0 r1 m0 (Or.inr ⟨rfl, rfl⟩) hr
  obtain ⟨t', f2⟩ := Three.answer (s := t) e3 e5 o2 hls' hlen (copyRep r0 q0) (copyRep r1 q1) m0' (Or.inl ⟨rfl, rfl⟩) hr
  exact ⟨2, _, text, m, t, _, _, _, s', t', hgrp, e1, e2, f1, f2, rfl, rfl⟩

/-- The hypotheses of C56 hold of a grouping that is moved twice, and searched in between. -/
example (env : Env XF) (hr : env.ratio = F.fin 0) (hl : ∀ i, env.doLog i = false) (hio : env.io = intIO) :
    ∃ n s₁ text m t text' m' u, GSet.groupAllLengths env "euclidean" (F.fin 4) ⟨Three.ds, none, none⟩ = (.ok n, s₁) ∧
      s₁.saveGroups env true false = .ok text ∧ GSet.loadGroups env (some text) ⟨Three.ds, none, none⟩ = (.ok m, t) ∧
      t.saveGroups env true false = .ok text' ∧ GSet.loadGroups env (some text') ⟨Three.ds, none, none⟩ = (.ok m', u) ∧
      Carried intIO 2 ([[0, 0], [2, 2], [3, 3]].map fins) s₁ false (u.getBestMatch env (Series.mk' (fins [1, 1]))).2 := by
  have hgrp := Three.group_eq env hr hl
  have hP : ∀ r ∈ ([[0, 0], [2, 2], [3, 3]].map fins : List (List XF)), ∀ v ∈ r, ∃ z : ℤ, v = F.fin (z : ℝ) := by
    intro r hr v hv
    obtain ⟨r', h1, rfl⟩ := List.mem_map.mp hr
    obtain ⟨w, h2, rfl⟩ := List.mem_map.mp hv
    exact Three.rows_int r' h1 w h2
  have hio' : IOok env.io (fun v => ∃ z : ℤ, v = F.fin (z : ℝ)) id id := by rw [hio]; exact intIO_int
  have hfit : SizeOk 3 2 := ⟨by norm_num, by norm_num, by norm_num⟩
  have k0 : Kept env.io (fun v => ∃ z : ℤ, v = F.fin (z : ℝ)) 3 2 Three.grouped :=
    .grouped Three.holds (by simp) hP ⟨4, by norm_num⟩ hgrp
  obtain ⟨text, m, t, _, _, _, a1, a2, _⟩ := C38_reload env hio' 3 2 hfit _ k0 ⟨Three.ds, none, none⟩ rfl rfl
  have k1 := Kept.reloaded k0 rfl a1 (by rfl) (by rfl) a2
  obtain ⟨text', m', u, _, _, _, b1, b2, _⟩ := C38_reload env hio' 3 2 hfit _ k1 ⟨Three.ds, none, none⟩ rfl rfl
  refine ⟨2, _, text, m, t, text', m', u, hgrp, a1, a2, b1, b2, ?_⟩
  refine .matched env (.moved (.moved .made hio a1 Three.holds a2) hio b1 Three.holds b2) ?_ _
  rw [hr]
  exact bandNN_F fun x hx => by cases hx; exact le_refl _

end Onex
