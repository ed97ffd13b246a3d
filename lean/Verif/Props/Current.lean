import Verif.Proofs.Fresh
import Verif.Props.Match
import Verif.Props.Paa
import Verif.Props.Load
import Verif.Proofs.Stale

/-!
# C40: groups and the data they describe

The representatives of groups made by `groupAllLengths` point into the dataset buffer and cache envelopes of what they see there.
Neither `PAA`, `loadData` nor `normalize` touches the groups.
-/

namespace Onex
open DataT Spec

section any
variable {α : Type} [DataT α]

theorem allCurrent_iff {s : GSet α} {gs : GlobalSpace α} (h : s.groups = some gs) :
    AllCurrent s ↔ LsCur s.ds (fun _ => True) gs.locals := by
  constructor
  · intro hs ls hls g hg
    exact ⟨hs gs h ls hls g hg, trivial⟩
  · intro hs gs' h' ls hls g hg
    rw [h] at h'
    cases h'
    exact (hs ls hls g hg).1

theorem allCurrent_none {s : GSet α} (h : s.groups = none) : AllCurrent s := by
  intro gs h'
  rw [h] at h'
  cases h'

theorem group_current (env : Env α) (name : String) (th : α) {s : GSet α} (h : AllCurrent s) :
    AllCurrent (s.groupAllLengths env name th).2 := by
  have hg := (safe_group (ds := s.ds) (K := fun _ => True) (fun _ _ => trivial) env.ratio name th env.doLog GlobalSpace.fresh).1
  unfold GSet.groupAllLengths
  split
  · exact h
  · dsimp only [GSet.reset]
    revert hg
    generalize (GlobalSpace.fresh : GlobalSpace α).group env.ratio s.ds name th env.doLog = x
    rcases x with ⟨r, gs⟩
    intro hg
    rcases r with n | e | w
    all_goals exact (allCurrent_iff rfl).mpr hg

theorem group_current_ok (env : Env α) (name : String) (th : α) {s s' : GSet α} {n : Int}
    (h : s.groupAllLengths env name th = (.ok n, s')) : AllCurrent s' := by
  have hg := (safe_group (ds := s.ds) (K := fun _ => True) (fun _ _ => trivial) env.ratio name th env.doLog GlobalSpace.fresh).1
  unfold GSet.groupAllLengths at h
  split at h
  · cases h
  · dsimp only [GSet.reset] at h
    revert hg h
    generalize (GlobalSpace.fresh : GlobalSpace α).group env.ratio s.ds name th env.doLog = x
    rcases x with ⟨r, gs⟩
    intro hg h
    rcases r with n | e | w <;> cases h
    exact (allCurrent_iff rfl).mpr hg

theorem loadGroups_current (env : Env α) (file : Option Text) {s : GSet α} :
    (s.loadGroups env file).2 = s ∨ AllCurrent (s.loadGroups env file).2 := by
  unfold GSet.loadGroups
  split
  · exact Or.inl rfl
  · dsimp only
    split
    · exact Or.inl rfl
    · split
      · exact Or.inl rfl
      · split
        · exact Or.inl rfl
        · split
          · exact Or.inl rfl
          · split
            · exact Or.inl rfl
            · split
              · exact Or.inl rfl
              · right
                exact (allCurrent_iff rfl).mpr (safe_load (ds := s.ds) env.io (fun _ => trivial) GlobalSpace.fresh _).1

theorem loadGroups_ok_current (env : Env α) (file : Option Text) {s s' : GSet α} {n : Int}
    (h : s.loadGroups env file = (.ok n, s')) : AllCurrent s' := by
  unfold GSet.loadGroups at h
  split at h
  · cases h
  · dsimp only at h
    split at h
    · cases h
    · split at h
      · cases h
      · split at h
        · cases h
        · split at h
          · cases h
          · split at h
            · cases h
            · split at h
              · cases h
              · have := congrArg Prod.snd h
                dsimp only at this
                subst this
                exact (allCurrent_iff rfl).mpr (safe_load (ds := s.ds) env.io (fun _ => trivial) GlobalSpace.fresh _).1

theorem match_current (env : Env α) (q : List α) {s : GSet α} (h : AllCurrent s) :
    AllCurrent (s.getBestMatch env (Series.mk' q)).2 ∧ (s.getBestMatch env (Series.mk' q)).1 ≠ .ub "use after free" := by
  unfold GSet.getBestMatch
  cases hg : s.groups with
  | none => exact ⟨h, by simp⟩
  | some gs =>
    have hs := safe_bestMatch env.junk env.ratio ((allCurrent_iff hg).mp h) (sCur_mk q)
    dsimp only
    revert hs
    generalize gs.getBestMatch env.junk env.ratio s.ds (Series.mk' q) = x
    intro hs
    rcases x with ⟨c, gs'⟩ | e | w
    · exact ⟨(allCurrent_iff rfl).mpr (hs.1 _ rfl), by simp⟩
    · exact ⟨h, by simp⟩
    · exact ⟨h, by have := hs.2; simpa using this⟩

theorem normalize_rejected {s : GSet α} (h : ∀ v, s.normalize.1 ≠ .ok v) : s.normalize.2 = s := by
  revert h
  unfold GSet.normalize Dataset.normalize
  dsimp only
  split
  · exact fun _ => rfl
  · split
    · exact fun h => absurd rfl (h _)
    · exact fun _ => rfl
    · exact fun _ => rfl

theorem paa_rejected {env : Env α} {n : Int} {s : GSet α} (h : (s.PAA env n).1 ≠ .ok ()) : (s.PAA env n).2 = s := by
  revert h
  unfold GSet.PAA Dataset.PAA
  dsimp only
  split
  · exact fun _ => rfl
  · split
    · exact fun _ => rfl
    · split
      · exact fun h => absurd rfl h
      · exact fun _ => rfl
      · exact fun _ => rfl

/-- C40, the part that holds, for every number type and every history: unless data were changed under existing groups since the
last successful grouping (or loading of groups), every representative lives in allocated memory and every cached envelope
belongs to the present values. -/
theorem C40_current_partial {s : GSet α} (h : History s false) : AllCurrent s := by
  have gen : ∀ {s : GSet α} {b : Bool}, History s b → b = false → AllCurrent s := by
    intro s b h
    induction h with
    | new => exact fun _ => allCurrent_none rfl
    | @step s spoilt h op r s' hs hr ih =>
      intro hb
      cases op with
      | load env file path m c seps =>
        simp only [GOp.makes, GOp.spoils, Bool.false_eq_true, false_and, if_false, Bool.or_eq_false_iff] at hb
        refine allCurrent_none ?_
        have : _ = s' := congrArg Prod.snd hs
        rw [← this]
        simpa [GOp.step, GSet.loadData] using hb.2
      | normalize =>
        simp only [GOp.makes, GOp.spoils, Bool.false_eq_true, false_and, if_false, Bool.or_eq_false_iff, Bool.and_eq_false_iff] at hb
        obtain ⟨h1, h2⟩ := Prod.mk.inj hs
        rcases hb.2 with hn | hn
        · refine allCurrent_none ?_
          rw [← h2]
          simpa [GSet.normalize] using hn
        · have : s.normalize.2 = s := by
            refine normalize_rejected fun v hv => ?_
            rw [← h1, hv] at hn
            cases hn
          rw [← h2, this]
          exact ih hb.1
      | paa env n =>
        simp only [GOp.makes, GOp.spoils, Bool.false_eq_true, false_and, if_false, Bool.or_eq_false_iff, Bool.and_eq_false_iff] at hb
        have h1 : (s.PAA env n).1 = r := congrArg Prod.fst hs
        have h2 : (s.PAA env n).2 = s' := congrArg Prod.snd hs
        rcases hb.2 with hn | hn
        · refine allCurrent_none ?_
          rw [← h2]
          simpa [GSet.PAA] using hn
        · have : (s.PAA env n).2 = s := by
            refine paa_rejected fun hv => ?_
            rw [← h1, hv] at hn
            cases hn
          rw [← h2, this]
          exact ih hb.1
      | group env name th =>
        obtain ⟨h1, h2⟩ := Prod.mk.inj hs
        by_cases hok : r = .ok ()
        · subst hok
          obtain ⟨n, hn, _⟩ := Res.bind_eq_ok.mp h1
          exact group_current_ok env name th (n := n) (Prod.ext hn h2)
        · rw [if_neg (by simp [hok])] at hb
          simp only [GOp.spoils, Bool.or_false] at hb
          rw [← h2]
          exact group_current env name th (ih hb)
      | loadGroups env file =>
        obtain ⟨h1, h2⟩ := Prod.mk.inj hs
        by_cases hok : r = .ok ()
        · subst hok
          obtain ⟨n, hn, _⟩ := Res.bind_eq_ok.mp h1
          exact loadGroups_ok_current env file (n := n) (Prod.ext hn h2)
        · rw [if_neg (by simp [hok])] at hb
          simp only [GOp.spoils, Bool.or_false] at hb
          rw [← h2]
          rcases loadGroups_current env file (s := s) with h | h
          · rw [h]
            exact ih hb
          · exact h
      | match_ env q =>
        simp only [GOp.makes, GOp.spoils, Bool.false_eq_true, false_and, if_false, Bool.or_false] at hb
        obtain ⟨h1, h2⟩ := Prod.mk.inj hs
        rw [← h2]
        exact (match_current env q (ih hb)).1
  exact gen h rfl

/-- C40: in such states neither a match nor saving the groups touches freed memory. -/
theorem C40_match_partial {s : GSet α} (h : History s false) (env : Env α) (q : List α) :
    (s.getBestMatch env (Series.mk' q)).1 ≠ .ub "use after free" ∧
    ∀ canOpen sizeOnly, s.saveGroups env canOpen sizeOnly ≠ .ub "use after free" := by
  have hc := C40_current_partial h
  refine ⟨(match_current env q hc).2, ?_⟩
  intro canOpen sizeOnly
  suffices NoUaf (s.saveGroups env canOpen sizeOnly) from this.2
  unfold GSet.saveGroups
  cases hg : s.groups with
  | none => exact Safe.throw _
  | some gs =>
    have hl := (allCurrent_iff hg).mp hc
    dsimp only
    split
    · split
      · exact Safe.ub (by decide)
      · refine noUaf_bind ?_ fun _ => Safe.ok trivial
        unfold GlobalSpace.saveGroups
        refine noUaf_bind (noUaf_saveLocals (K := fun _ => True) env.io sizeOnly _ ?_) fun _ => Safe.ok trivial
        intro ls hls
        exact hl ls (List.mem_of_mem_drop hls)
    · exact Safe.throw _

theorem paa_gen {junk : α} {n : Int} {ds ds' : Dataset α} (h : ds.PAA junk n = (.ok (), ds')) : ds'.gen = ds.gen + 1 := by
  unfold Dataset.PAA at h
  split at h
  · cases h
  · dsimp only at h
    split at h
    · cases h
    · split at h <;> cases h
      rfl

theorem loadData_gen (stod : Text → Stod α) (file : Option Text) (path : String) (m c : Int) (seps : Text) (ds : Dataset α) :
    ds.gen < (ds.loadData stod file path m c seps).2.gen := by
  unfold Dataset.loadData
  dsimp only
  split
  · simp [Dataset.clear]
  · split
    · simp only [Dataset.clear]
      omega
    · simp [Dataset.clear]
    · simp [Dataset.clear]

end any

/-! ## Changing data under groups -/

variable {ρ : Rounding}

/-- Once the buffer a grouping was made from is gone, every match the grouping could have answered uses freed memory. -/
theorem dangling {s₀ s : GSet (F ρ)} {L : Nat} {R : List (List ℝ)} (hR : s₀.ds.Holds L (R.map fins)) (hne : R ≠ [])
    {env env' : Env (F ρ)} {ratio ratio' : ℝ} (hf : FitEnv env L ratio) (hf' : FitEnv env' L ratio') {name : String} {th : F ρ}
    {n : Int} (h : s₀.groupAllLengths env name th = (.ok n, s)) {ds : Dataset (F ρ)} (hgen : ds.gen ≠ s₀.ds.gen)
    {q : List ℝ} (h2 : 2 ≤ q.length) (hL : q.length ≤ L) :
    (({ s with ds := ds } : GSet (F ρ)).getBestMatch env' (Series.mk' (fins q))).1 = .ub "use after free" := by
  obtain ⟨_, gs, MM, AA, hg, hok, _⟩ := grouped_searchOk hf.eq hR hne hf.fits h
  have hv : LsCur s₀.ds (fun c => ∃ v : View, c = .view v ∧ v.gen = s₀.ds.gen) gs.locals := by
    have hg' := (safe_group (ds := s₀.ds) (K := fun c => ∃ v : View, c = .view v ∧ v.gen = s₀.ds.gen)
      (fun v hv => ⟨v, rfl, hv⟩) env.ratio name th env.doLog GlobalSpace.fresh).1
    unfold GSet.groupAllLengths at h
    split at h
    · cases h
    · dsimp only [GSet.reset] at h
      revert hg' h
      generalize (GlobalSpace.fresh : GlobalSpace (F ρ)).group env.ratio s₀.ds name th env.doLog = x
      rcases x with ⟨r, gs'⟩
      intro hg' h
      rcases r with n | e | w <;> cases h
      cases hg
      exact hg'
  obtain ⟨ls, hls, hlo⟩ := hok.at_ q.length (by omega) (by omega)
  have hpos : 0 < ls.groups.length := by
    rw [hlo.space.card]
    exact hlo.some
  obtain ⟨_, v, hsrc, hvg⟩ := hv ls (vget_mem hls) ls.groups[0] (List.getElem_mem hpos)
  obtain ⟨order, ho, ⟨t, rfl⟩, _⟩ := traverse_spec (ρ := ρ) hf'.fits h2 hL
  have hg0 : ls.groups[0].centroid.resolve ds = .ub "use after free" := by
    unfold Cent.resolve
    rw [hsrc]
    dsimp only
    unfold Dataset.resolve
    rw [if_pos (by rw [hvg]; exact fun e => hgen e.symm)]
    rfl
  have hlen : (Series.mk' (fins q) : Series (F ρ)).length = q.length := by
    simp [Series.length, Series.mk', len]
  have hnear : ∀ x, nearest ds (cascadeDistance env'.junk env'.ratio) ls.groups (Series.mk' (fins q)) x =
      .ub "use after free" := by
    intro x
    unfold nearest
    rw [forInt_succ (by simp only [len]; omega)]
    unfold nearestStep
    rw [show (0 : Int) = ((0 : ℕ) : Int) from rfl, vget_nat hpos, Res.bind_ok]
    unfold Group.distanceFromCentroid
    rw [hg0]
    rfl
  have hrun : gs.getBestMatch env'.junk env'.ratio ds (Series.mk' (fins q)) = .ub "use after free" := by
    unfold GlobalSpace.getBestMatch
    rw [if_neg (by rw [hlen]; omega)]
    dsimp only
    rw [hlen, hf'.eq, show len gs.locals - 1 = (L : Int) by rw [hok.size]; omega, ho, Res.bind_ok]
    unfold searchLoop searchStep
    dsimp only
    rw [hls, Res.bind_ok]
    dsimp only
    unfold LocalSpace.getBestGroup
    rw [← hf'.eq, hnear]
    rfl
  unfold GSet.getBestMatch
  dsimp only
  rw [hg]
  dsimp only
  rw [hrun]

/-- C40 is false: group, then PAA with any block size, then match: for every dataset of real numbers and every query the grouping
could have answered, the match reads freed memory. -/
theorem C40_paa_counterexample (s₀ s s' : GSet (F ρ)) (L : Nat) (R : List (List ℝ)) (hR : s₀.ds.Holds L (R.map fins))
    (hne : R ≠ []) (env env' : Env (F ρ)) (ratio ratio' : ℝ) (hf : FitEnv env L ratio) (hf' : FitEnv env' L ratio')
    (name : String) (th : F ρ) (n m : Int) (h : s₀.groupAllLengths env name th = (.ok n, s))
    (hp : s.PAA env m = (.ok (), s')) (q : List ℝ) (h2 : 2 ≤ q.length) (hL : q.length ≤ L) :
    (s'.getBestMatch env' (Series.mk' (fins q))).1 = .ub "use after free" := by
  have hds := (grouped_searchOk hf.eq hR hne hf.fits h).1
  have : s' = { s with ds := s'.ds } ∧ s'.ds.gen ≠ s₀.ds.gen := by
    unfold GSet.PAA at hp
    rw [hds] at hp
    have h1 : (s₀.ds.PAA env.junk m).1 = .ok () := congrArg Prod.fst hp
    have h2 : ({ s with ds := (s₀.ds.PAA env.junk m).2 } : GSet (F ρ)) = s' := congrArg Prod.snd hp
    rw [← h2]
    refine ⟨rfl, ?_⟩
    have := paa_gen (junk := env.junk) (n := m) (ds := s₀.ds) (ds' := (s₀.ds.PAA env.junk m).2) (Prod.ext h1 rfl)
    dsimp only
    omega
  rw [this.1]
  exact dangling hR hne hf hf' h this.2 h2 hL

/-- C40 is false: group, then load another file (successfully or not), then match: the match reads freed memory. -/
theorem C40_reload_counterexample (s₀ s s' : GSet (F ρ)) (L : Nat) (R : List (List ℝ)) (hR : s₀.ds.Holds L (R.map fins))
    (hne : R ≠ []) (env env' : Env (F ρ)) (ratio ratio' : ℝ) (hf : FitEnv env L ratio) (hf' : FitEnv env' L ratio')
    (name : String) (th : F ρ) (n : Int) (h : s₀.groupAllLengths env name th = (.ok n, s))
    (file : Option Text) (path : String) (maxNumRow startCol : Int) (seps : Text) (r : Res Unit)
    (hp : s.loadData env file path maxNumRow startCol seps = (r, s')) (q : List ℝ) (h2 : 2 ≤ q.length) (hL : q.length ≤ L) :
    (s'.getBestMatch env' (Series.mk' (fins q))).1 = .ub "use after free" := by
  have hds := (grouped_searchOk hf.eq hR hne hf.fits h).1
  have : s' = { s with ds := s'.ds } ∧ s'.ds.gen ≠ s₀.ds.gen := by
    unfold GSet.loadData at hp
    rw [hds] at hp
    have h2 : ({ s with ds := (s₀.ds.loadData env.stod file path maxNumRow startCol seps).2 } : GSet (F ρ)) = s' :=
      congrArg Prod.snd hp
    rw [← h2]
    refine ⟨rfl, ?_⟩
    have := loadData_gen env.stod file path maxNumRow startCol seps s₀.ds
    dsimp only
    omega
  rw [this.1]
  exact dangling hR hne hf hf' h this.2 h2 hL

/-- C40 is false: group, match, normalize, match.  The series are `0 0` and `30 40` (each its own group); the first query is
`0 1`.  After normalization the series are `0 0` and `3/4 1`, and the second query is exactly the second series; yet the
search discards it, because the envelope cached for its representative still reads `30 40`, and answers with the
first series at distance 5/16.  The cached envelope indeed is not current. -/
theorem C40_normalize_counterexample (env : Env (F Rounding.exact)) (hr : env.ratio = F.fin 0) (hl : ∀ i, env.doLog i = false) :
    ∃ (s₀ s₁ s₂ s₃ s₄ : GSet (F Rounding.exact)) (c c' : Cand (F Rounding.exact)) (v : View),
      s₀.ds.Holds 2 ([[0, 0], [30, 40]].map fins) ∧
      s₀.groupAllLengths env "euclidean" (F.fin 0) = (.ok 2, s₁) ∧
      s₁.getBestMatch env (Series.mk' (fins [0, 1])) = (.ok c, s₂) ∧
      s₂.normalize = (.ok (F.fin 0, F.fin 40), s₃) ∧ s₃.ds.Holds 2 ([[0, 0], [3 / 4, 1]].map fins) ∧
      s₃.getBestMatch env (Series.mk' (fins [3 / 4, 1])) = (.ok c', s₄) ∧ c'.ts.index = 0 ∧ c'.dist = F.fin (5 / 16) ∧
      s₃.ds.getTimeSeries 1 0 2 = .ok v ∧ s₃.ds.resolve v = .ok (fins [3 / 4, 1]) ∧
      warpedDistance env.ratio (fins [3 / 4, 1]) (fins [3 / 4, 1]) (F.pinf : F Rounding.exact) = .ok (F.fin 0) ∧
      ¬ AllCurrent s₃ := by
  have m1 : (⟨DD 1 0 0 30 40 false, some (space 1 none none), some (F.fin 0)⟩ : GSet (F Rounding.exact)).getBestMatch env
      (Series.mk' (fins [0, 1])) =
      (.ok ⟨vw 1 0, F.fin (1 / 4)⟩, ⟨DD 1 0 0 30 40 false, some (space 1 (some (E 0 0)) (some (E 30 40))), some (F.fin 0)⟩) := by
    unfold GSet.getBestMatch
    dsimp only
    rw [hr, search_eq env.junk 1 0 0 30 40 0 1 (1 / 4) false none none (Or.inl rfl) (gk_fresh _ _ _) cd_a (by norm_num)
      (by norm_num)]
  have m2 : (⟨DD 1 0 0 (3 / 4) 1 true, some (space 1 (some (E 0 0)) (some (E 30 40))), some (F.fin 0)⟩ :
      GSet (F Rounding.exact)).getBestMatch env (Series.mk' (fins [3 / 4, 1])) =
      (.ok ⟨vw 1 0, F.fin (5 / 16)⟩,
        ⟨DD 1 0 0 (3 / 4) 1 true, some (space 1 (some (E 0 0)) (some (E 30 40))), some (F.fin 0)⟩) := by
    unfold GSet.getBestMatch
    dsimp only
    rw [hr, search_eq env.junk 1 0 0 (3 / 4) 1 (3 / 4) 1 (5 / 16) true (some (E 0 0)) (some (E 30 40)) (Or.inr rfl)
      (gk_cached _ _ _ _) cd_b (by norm_num) (by norm_num)]
  have hn : (⟨DD 1 0 0 30 40 false, some (space 1 (some (E 0 0)) (some (E 30 40))), some (F.fin 0)⟩ :
      GSet (F Rounding.exact)).normalize =
      (.ok (F.fin 0, F.fin 40), ⟨DD 1 0 0 (3 / 4) 1 true, some (space 1 (some (E 0 0)) (some (E 30 40))), some (F.fin 0)⟩) := by
    unfold GSet.normalize
    dsimp only
    rw [norm_eq]
  refine ⟨⟨DD 1 0 0 30 40 false, none, none⟩, _, _, _, _, _, _, vw 1 1, ⟨by simp [fins], rfl, rfl, [], rfl⟩,
    group_eq env hr hl 1 30 40 (by norm_num) false none, m1, hn, ⟨by simp [fins], rfl, rfl, [], rfl⟩, m2, rfl, rfl,
    get1 _ _ _ _ _ _, res1 _ _ _ _ _ _, ?_, ?_⟩
  · rw [hr, warped_two]
    simp [cd]
  · intro h
    obtain ⟨s, h1, h2⟩ := h _ rfl { length := 2, subCount := 1, groups := [gr 1 0 (some (E 0 0)), gr 1 1 (some (E 30 40))], memberMap := mmap } (by simp [space]) (gr 1 1 (some (E 30 40))) (by simp)
    have e : (gr 1 1 (some (E 30 40))).centroid.resolve (DD 1 0 0 (3 / 4) 1 true) =
        .ok ⟨fins [3 / 4, 1], some (E 30 40)⟩ := by
      simp only [gr, Cent.resolve]
      rw [res1]
      rfl
    rw [e] at h1
    cases h1
    obtain ⟨junk, hj⟩ := h2 _ rfl
    have e' : (E 30 40).band = 0 := rfl
    rw [e', env0] at hj
    simp only [Res.ok.injEq, Prod.mk.injEq, E, fins, List.map_cons, List.cons.injEq, F.fin.injEq] at hj
    norm_num at hj

/-- A history for all theorems above (numbers are read as their number of digits): load two series, group them, match, all without
spoiling; and PAA then succeeds. -/
example (io : NumIO (F Rounding.exact)) :
    let stod : Text → Stod (F Rounding.exact) := fun t => .val (F.fin (t.length : ℝ))
    let env : Env (F Rounding.exact) := ⟨F.fin 1, F.nan, io, stod, fun _ => false⟩
    ∃ (s₀ s₁ s₂ s₃ : GSet (F Rounding.exact)) (n : Int), History s₀ false ∧ s₀.ds.Holds 2 ([[1, 2], [3, 1]].map fins) ∧ FitEnv env 2 1 ∧
      s₀.groupAllLengths env "euclidean" (F.fin 1) = (.ok n, s₁) ∧ History s₁ false ∧
      History s₂ false ∧ s₂.groups.isSome ∧ s₁.PAA env 1 = (.ok (), s₃) := by
  intro stod env
  obtain ⟨ds, h1, _, _, h2⟩ := C18_load_rectangular stod (text := "1,22\n333,1".toList) (lines := ["1,22".toList, "333,1".toList])
    (by have := fileHas_getLines "1,22\n333,1".toList; simpa [getLines] using this) [','] 0 0 2 2 rfl (by norm_num)
    [["1".toList, "22".toList], ["333".toList, "1".toList]] (by
      simp only [List.take_succ_cons, List.take_zero]
      refine .cons ⟨?_, rfl⟩ (.cons ⟨?_, rfl⟩ .nil)
      · have := lineHas_tokenize [','] _ "1,22".toList (le_refl _)
        simpa [tokenize, List.splitOnP_cons_eq_if_modifyHead] using this
      · have := lineHas_tokenize [','] _ "333,1".toList (le_refl _)
        simpa [tokenize, List.splitOnP_cons_eq_if_modifyHead] using this) (by norm_num) ([[1, 2], [3, 1]].map fins) (by
      refine .cons (.cons ?_ (.cons ?_ .nil)) (.cons (.cons ?_ (.cons ?_ .nil)) .nil) <;> simp [stod]) Dataset.empty "x"
  have hl : (GSet.empty : GSet (F Rounding.exact)).loadData env (some "1,22\n333,1".toList) "x" 0 0 [','] =
      (.ok (), ⟨ds, none, none⟩) := by
    unfold GSet.loadData
    have h1' : Dataset.empty.loadData env.stod (some "1,22\n333,1".toList) "x" 0 0 [','] = (.ok (), ds) := h1
    dsimp only [GSet.empty]
    rw [h1']
  have H0 : History (⟨ds, none, none⟩ : GSet (F Rounding.exact)) false :=
    History.step History.new (.load env (some "1,22\n333,1".toList) "x" 0 0 [',']) hl (by simp)
  have hfit : FitEnv env 2 1 := ⟨rfl, ratioOk_of (by norm_num) (by norm_num)⟩
  obtain ⟨n, s₁, h⟩ := C36_completes_partial env 1 rfl ⟨ds, none, none⟩ 2 [[1, 2], [3, 1]] h2 hfit.fits "euclidean" (Or.inl rfl)
    (F.fin 1) (Or.inr fun _ => rfl)
  have hs : GOp.step ⟨ds, none, none⟩ (.group env "euclidean" (F.fin 1)) = (.ok (), s₁) := by
    unfold GOp.step
    dsimp only
    rw [h]
    rfl
  have H1 : History s₁ false := by
    have := History.step H0 _ hs (by simp)
    simpa [GOp.makes] using this
  obtain ⟨_, _, _, _, _, s₂, e2, h3, _⟩ := C33_match_is_real _ s₁ 2 [[1, 2], [3, 1]] h2 (by simp) (.grouped hfit h) env 1 hfit [1, 2] _
    (seriesOk_mk _) (by simp) (by simp)
  have hm : GOp.step s₁ (.match_ env (fins [1, 2])) = (.ok (), s₂) := by
    unfold GOp.step
    dsimp only
    rw [e2]
    rfl
  have H2 : History s₂ false := by
    have := History.step H1 _ hm (by simp)
    simpa [GOp.makes, GOp.spoils] using this
  obtain ⟨_, gs, _, _, hg, _⟩ := searched_inv h2 (by simp) h3
  have hds := (searched_inv h2 (by simp) (.grouped hfit h)).1
  have hp : ∃ ds', s₁.ds.PAA env.junk 1 = (.ok (), ds') := by
    rw [hds]
    obtain ⟨ds', _, h, _⟩ := C22_paa_means env.junk h2 (by norm_num) 1 (le_refl _)
    exact ⟨ds', h⟩
  obtain ⟨ds', hp⟩ := hp
  refine ⟨_, s₁, s₂, { s₁ with ds := ds' }, n, H0, h2, hfit, h, H1, H2, by rw [hg]; rfl, ?_⟩
  unfold GSet.PAA
  rw [hp]

end Onex
