import Verif.Proofs.GroupGlobal
import Verif.Props.Search
import Verif.Spec.GroupSet

/-!
# Properties C25 to C28, C36 and C37: grouping
-/

namespace Onex
open DataT Spec

set_option linter.unusedSectionVars false

section any
variable {α : Type} [DataT α]

theorem groupAllLengths_ok {env : Env α} {name : String} {th : α} {s s' : GSet α} {n : Int}
    (h : s.groupAllLengths env name th = (.ok n, s')) :
    s'.ds = s.ds ∧ s'.threshold = some th ∧ ∃ gs dn, s'.groups = some gs ∧ gs.distanceName = name ∧
      getDistance name = .ok dn ∧ GroupedBy s.ds (dn.fn env.ratio) th gs.locals n := by
  unfold GSet.groupAllLengths at h
  split at h
  · simp at h
  · simp only [GSet.reset] at h
    rcases hg : (GlobalSpace.fresh : GlobalSpace α).group env.ratio s.ds name th env.doLog with ⟨r, gs⟩
    rw [hg] at h
    simp only at h
    split at h
    · rename_i n'
      simp only [Prod.mk.injEq, Res.ok.injEq] at h
      obtain ⟨rfl, rfl⟩ := h
      obtain ⟨dn, h1, h2, h3⟩ := group_ok hg
      exact ⟨rfl, rfl, gs, dn, rfl, h2, h1, h3⟩
    · rename_i hr
      simp only [Prod.mk.injEq] at h
      exact absurd h.1 (hr n)

theorem groupsOf_grouped {env : Env α} {name : String} {th : α} {s s' : GSet α} {n : Int}
    (h : s.groupAllLengths env name th = (.ok n, s')) {l : Int} {ls : LocalSpace α} (hls : GroupsOf s' l ls) :
    ∃ dn, getDistance name = .ok dn ∧ 2 ≤ l ∧ l ≤ s.ds.itemLength ∧
      groupsAt s.ds (dn.fn env.ratio) th l = .ok ls := by
  obtain ⟨_, _, gs, dn, h1, _, h2, h3⟩ := groupAllLengths_ok h
  obtain ⟨gs', e1, e2⟩ := hls
  rw [h1, Option.some.injEq] at e1
  subst e1
  exact ⟨dn, h2, h3.entry e2⟩

theorem groupsAt_partition {ds : Dataset α} {d : Dist α} {th : α} {l : Int} {ls : LocalSpace α}
    (hcnt : 0 ≤ ds.itemCount) (hl : 1 ≤ l) (h : groupsAt ds d th l = .ok ls) :
    ∃ M, SpaceInv ds l ls M ∧ RepInv ds l ls.groups M ∧
      ∀ c, c ∈ M.flatten ↔ IsSub ds.itemCount ds.itemLength l c := by
  obtain ⟨ls0, h1, h2⟩ := Res.bind_eq_ok.mp h
  obtain ⟨i1, i2, i3⟩ := spaceInv_new h1
  refine generateGroups_okInv hcnt i1.subCount
    (fun ls S => ∃ M, SpaceInv ds l ls M ∧ RepInv ds l ls.groups M ∧ ∀ c, c ∈ M.flatten ↔ S c)
    ⟨[], i1, i2, by simp⟩ ?_ h2
  rintro ls ls' S c ⟨M, a1, a2, a3⟩ hc hS e
  obtain ⟨M', b1, b2, b3⟩ := placeOne_inv hl a1 a2 hc (fun h => hS ((a3 c).mp h)) e
  refine ⟨M', b1, b2, ?_⟩
  intro c'
  rw [b3.mem_iff, List.mem_cons, a3]
  exact or_comm

theorem SpaceInv.partition {ds : Dataset α} {l : Int} (hl : 1 ≤ l) {ls : LocalSpace α} {M : List (List Coord)}
    (h : SpaceInv ds l ls M) (hr : RepInv ds l ls.groups M)
    (hall : ∀ c, c ∈ M.flatten ↔ IsSub ds.itemCount ds.itemLength l c) : Partition ds l ls M where
  card := h.card.symm
  members := by
    intro k hk hk'
    refine ⟨getMembers_spec hl h.mapLen (h.inv k hk hk'), (h.inv k hk hk').count, ?_⟩
    obtain ⟨r, e, _⟩ := hr k hk hk'
    intro e'
    rw [e'] at e
    simp at e
  once := h.nodup
  all := hall

/-- C25: after any grouping that completes - any numbers (also NaN), any threshold, either
distance - the groups of every length from 2 to the item length partition the sub-series of
that length, and no other length has groups. -/
theorem C25_partition (env : Env α) (name : String) (th : α) (s s' : GSet α) (n : Int)
    (hcnt : 0 ≤ s.ds.itemCount) (h : s.groupAllLengths env name th = (.ok n, s')) :
    (∀ l, 2 ≤ l → l ≤ s.ds.itemLength → ∃ ls, GroupsOf s' l ls) ∧
    ∀ l ls, GroupsOf s' l ls → 2 ≤ l ∧ l ≤ s.ds.itemLength ∧ ∃ M, Partition s.ds l ls M := by
  constructor
  · intro l h1 h2
    obtain ⟨_, _, gs, dn, e1, _, _, e3⟩ := groupAllLengths_ok h
    obtain ⟨ls, _, e⟩ := e3.at_ l h1 h2
    exact ⟨ls, gs, e1, e⟩
  · intro l ls hls
    obtain ⟨dn, _, h1, h2, h3⟩ := groupsOf_grouped h hls
    obtain ⟨M, a, b, c⟩ := groupsAt_partition hcnt (by omega) h3
    exact ⟨h1, h2, M, a.partition (by omega) b c⟩

/-- C37: a grouping that completes depends on the data, the distance, the threshold and the band ratio only:
not on the groups the dataset had before, nor on the outcome of logging.  It leaves the data alone and returns the
total number of groups, which are one table entry per length, empty below 2. -/
theorem C37_function_of_data (env env' : Env α) (henv : env.ratio = env'.ratio) (name : String) (th : α)
    (s t s' t' : GSet α) (hst : s.ds = t.ds) (n m : Int)
    (h : s.groupAllLengths env name th = (.ok n, s')) (h' : t.groupAllLengths env' name th = (.ok m, t')) :
    s' = t' ∧ n = m ∧ s'.ds = s.ds ∧ s'.threshold = some th ∧
      ∃ gs, s'.groups = some gs ∧ len gs.locals = s.ds.itemLength + 1 ∧
        n = (gs.locals.map fun | none => 0 | some ls => len ls.groups).sum := by
  obtain ⟨a1, a2, gs, dn, a3, a4, a5, a6⟩ := groupAllLengths_ok h
  obtain ⟨b1, b2, gs', dn', b3, b4, b5, b6⟩ := groupAllLengths_ok h'
  rw [a5, Res.ok.injEq] at b5
  subst b5
  rw [← hst, ← henv] at b6
  obtain ⟨e1, e2⟩ := a6.unique b6
  have hg : gs = gs' := by
    cases gs
    cases gs'
    simp only at e1 a4 b4
    rw [e1, a4, b4]
  subst hg
  refine ⟨?_, e2, a1, a2, gs, a3, a6.size, ?_⟩
  · cases s'
    cases t'
    simp only at a1 a2 a3 b1 b2 b3
    rw [a1, a2, a3, b1, b2, b3, hst]
  · rw [a6.total]
    congr 2

/-- In particular grouping again after a grouping, or after a match or a rejected request that changed
the groups, gives the groups of the first grouping. -/
theorem C37_regroup (env : Env α) (name : String) (th : α) (s s₁ : GSet α) (n : Int)
    (h : s.groupAllLengths env name th = (.ok n, s₁)) (groups : Option (GlobalSpace α)) (st : Option α)
    (m : Int) (s₂ : GSet α)
    (h' : GSet.groupAllLengths env name th { ds := s₁.ds, groups := groups, threshold := st } = (.ok m, s₂)) :
    s₂ = s₁ ∧ m = n := by
  have := C37_function_of_data env env rfl name th s
    { ds := s₁.ds, groups := groups, threshold := st } s₁ s₂ (groupAllLengths_ok h).1.symm n m h h'
  exact ⟨this.1.symm, this.2.1.symm⟩

/-- C36 is false of the code: with a slow clock (more than the logging interval since the last
message) grouping fewer than five series divides by zero. -/
theorem C36_counterexample (env : Env α) (hlog : env.doLog 2 = true) (th : α) (s : GSet α)
    (hload : s.ds.isLoaded = true) (hl : s.ds.itemLength = 2) (hc : 1 ≤ s.ds.itemCount) (hc' : s.ds.itemCount < 5) :
    ∃ why, (s.groupAllLengths env "euclidean" th).1 = .ub why := by
  refine ⟨"modulo by zero", ?_⟩
  have hnew : ∃ ls, LocalSpace.new s.ds 2 = .ok ls ∧ ls.subCount = 1 := by
    unfold LocalSpace.new
    simp only [hl]
    rw [if_neg (by omega)]
    exact ⟨_, rfl, rfl⟩
  obtain ⟨ls, h1, h2⟩ := hnew
  have h3 : ls.generateGroups s.ds (DistName.euclidean.fn env.ratio) th true = .ub "modulo by zero" := by
    unfold LocalSpace.generateGroups
    simp only [h2]
    have : logProgress true (1 * s.ds.itemCount) = .ub "modulo by zero" := by
      unfold logProgress
      rw [if_pos ⟨rfl, by rw [Int.one_mul]; exact Int.tdiv_eq_zero_of_lt (by omega) hc'⟩]
    rw [forInt_succ (by omega), forInt_succ (by omega), this]
    rfl
  have hg : ∃ gs, (GlobalSpace.fresh : GlobalSpace α).group env.ratio s.ds "euclidean" th env.doLog =
      (.ub "modulo by zero", gs) := by
    unfold GlobalSpace.group
    simp only [getDistance, if_true]
    rw [if_neg (by omega), hl, forInt_succ (by omega), h1]
    simp only [Res.bind_ok, hlog, h3]
    exact ⟨_, rfl⟩
  obtain ⟨gs, hg⟩ := hg
  unfold GSet.groupAllLengths
  rw [if_neg (by simp [hload])]
  simp only [GSet.reset]
  rw [hg]

/-- A case: one series of length 2, and a clock that asks for a message. -/
example (io : NumIO α) (stod : Text → Stod α) (x y : α) :
    ∃ why, (GSet.groupAllLengths ⟨x, x, io, stod, fun _ => true⟩ "euclidean" y
      ⟨⟨some [x, y], 0, 2, 1, "", false⟩, none, none⟩).1 = .ub why :=
  C36_counterexample _ rfl _ _ rfl rfl (by simp) (by simp)

end any

section real
variable {ρ : Rounding}

/-- The named distances on series of one length. -/
theorem named_faithful (dn : DistName) {ratio : ℝ} {l : Int} (hl : 2 ≤ l) (hr : RatioOk ρ ratio l.toNat) :
    ∃ dom, ∃ W : List ℝ → List ℝ → F ρ, Faithful (dn.fn (F.fin ratio)) dom W ∧ ∀ a b : List ℝ, a.length = l.toNat → b.length = l.toNat →
      dom a b ∧ W a b ≠ F.pinf ∧ W a a = F.fin 0 := by
  cases dn with
  | euclidean =>
    refine ⟨_, _, faithful_euclid _, fun a b ha hb => ⟨⟨by omega, by omega⟩, by simp, by simp [eud_self]⟩⟩
  | euclideanDtw =>
    refine ⟨_, _, faithful_dtw ratio, fun a b ha hb =>
      ⟨⟨by rw [ha, hb, max_self]; exact hr, by omega, by omega⟩, ?_, wrd_self _ _ (by omega)⟩⟩
    rw [Ne, wrd_finite_iff _ _ _ (by omega) (by omega), ha, hb]
    omega

theorem new_ok {α : Type} (ds : Dataset α) (hcnt : 0 ≤ ds.itemCount) {l : Int} (hl : l ≤ ds.itemLength) :
    ∃ ls, LocalSpace.new ds l = .ok ls ∧ ls.subCount = ds.itemLength - l + 1 := by
  unfold LocalSpace.new
  simp only
  rw [if_neg (not_lt.mpr (mul_nonneg hcnt (by omega)))]
  exact ⟨_, rfl, rfl⟩

theorem log_ok {doLog : Bool} {cnt sub : Int} (h : 5 ≤ cnt ∨ doLog = false) (hs : 0 < sub) :
    logProgress doLog (sub * cnt) = .ok () := by
  unfold logProgress
  refine if_neg ?_
  rintro ⟨h1, h2⟩
  rcases h with h | h
  · have : 1 * cnt ≤ sub * cnt := mul_le_mul_of_nonneg_right hs (by omega)
    have h3 : (sub * cnt).tdiv 5 = sub * cnt / 5 := Int.tdiv_eq_ediv_of_nonneg (by omega)
    rw [h3] at h2
    omega
  · rw [h] at h1
    simp at h1

/-- C36, the part that holds, and totality of C25: on finite data grouping with either distance completes for every
rounding, every threshold (also infinite or NaN) and every behaviour of the clock, provided there are at
least five series or no progress is logged. -/
theorem C36_completes_partial (env : Env (F ρ)) (ratio : ℝ) (hratio : env.ratio = F.fin ratio) (s : GSet (F ρ))
    (L : Nat) (R : List (List ℝ)) (hR : s.ds.Holds L (R.map fins)) (hfit : ∀ l ≤ L, RatioOk ρ ratio l)
    (name : String) (hname : name = "euclidean" ∨ name = "euclidean_dtw") (th : F ρ)
    (hclock : 5 ≤ R.length ∨ ∀ l, env.doLog l = false) :
    ∃ n s', s.groupAllLengths env name th = (.ok n, s') := by
  have hdn : ∃ dn, getDistance name = .ok dn := by
    rcases hname with rfl | rfl
    · exact ⟨_, rfl⟩
    · exact ⟨_, rfl⟩
  obtain ⟨dn, hdn⟩ := hdn
  have hcnt := HoldsReal.count hR
  have htot := group_total (GlobalSpace.fresh : GlobalSpace (F ρ)) (ratio := env.ratio) (th := th)
    (doLog := env.doLog) hdn (ds := s.ds) (by rw [hR.itemLength]; omega) (by
      intro l h1 h2
      rw [hR.itemLength] at h2
      obtain ⟨dom, W, hf, hd⟩ := named_faithful (ρ := ρ) dn h1 (hfit l.toNat (by omega))
      obtain ⟨ls, e1, e2⟩ := new_ok s.ds (by omega) (l := l) (by rw [hR.itemLength]; omega)
      rw [e1, Res.bind_ok, hratio]
      refine (generate_real hR (by omega) hf (fun a b ha hb => ⟨(hd a b ha hb).1, (hd a b ha hb).2.1⟩) th _ e1 ?_).mono
        (fun _ _ => trivial)
      intro h
      exact log_ok (hclock.imp (fun h => by omega) (fun h => h l)) h.2)
  obtain ⟨n, gs, hg⟩ := htot
  have hload : s.ds.isLoaded = true := by
    obtain ⟨slack, hd⟩ := hR.data
    simp [Dataset.isLoaded, hd]
  refine ⟨n, { s with groups := some gs, threshold := some th }, ?_⟩
  unfold GSet.groupAllLengths
  rw [if_neg (by simp [hload])]
  simp only [GSet.reset]
  rw [hg]

/-- Everything known about the groups of one length of real data. -/
theorem grouped_real {env : Env (F ρ)} {ratio : ℝ} (hratio : env.ratio = F.fin ratio) {s s' : GSet (F ρ)}
    {L : Nat} {R : List (List ℝ)} (hR : s.ds.Holds L (R.map fins)) {name : String} {th : F ρ} {n : Int}
    (h : s.groupAllLengths env name th = (.ok n, s')) {l : Int} {ls : LocalSpace (F ρ)} (hls : GroupsOf s' l ls)
    {dn : DistName} (hdn : getDistance name = .ok dn)
    {dom W} (hf : Faithful (dn.fn (F.fin ratio)) dom W)
    (hdom : ∀ a b : List ℝ, a.length = l.toNat → b.length = l.toNat → dom a b ∧ W a b ≠ F.pinf) :
    ∃ M A, RealInv s.ds l R (dn.fn (F.fin ratio)) dom W th ls M A ∧
      ∀ c, c ∈ M.flatten ↔ IsSub s.ds.itemCount s.ds.itemLength l c := by
  obtain ⟨dn', hdn', h1, h2, h3⟩ := groupsOf_grouped h hls
  rw [hdn, Res.ok.injEq] at hdn'
  subst hdn'
  obtain ⟨ls0, e1, e2⟩ := Res.bind_eq_ok.mp h3
  rw [hratio] at e2
  obtain ⟨ls', e3, e4⟩ := generate_real hR (by omega) hf hdom th false e1 (fun _ => by simp [logProgress])
  rw [e2, Res.ok.injEq] at e3
  subst e3
  exact e4

/-- A group, seen through the invariant. -/
theorem RealInv.group {ds : Dataset (F ρ)} {L : Nat} {l : Int} (hl : 1 ≤ l) {R : List (List ℝ)}
    (hR : ds.Holds L (R.map fins)) {d dom W} {th : F ρ}
    {ls : LocalSpace (F ρ)} {M A} (h : RealInv ds l R d dom W th ls M A) {k : Nat} (hk : k < ls.groups.length) :
    ∃ (hM : k < M.length) (hA : k < A.length),
      ls.groups[k].getMembers ds ls.memberMap = .ok (M[k].map (subView ds l)) ∧
      RepValues ds ls.groups[k] A[k] ∧ A[k].length = l.toNat ∧
      ∀ c ∈ M[k], SubValues ds (subView ds l c) (subVals R l c) ∧ (subVals R l c).length = l.toNat := by
  have hM : k < M.length := by rw [← h.space.card]; exact hk
  have hA : k < A.length := by rw [h.lenA]; exact hM
  have hsub : ∀ c ∈ M[k], SubValues ds (subView ds l c) (subVals R l c) ∧ (subVals R l c).length = l.toNat := by
    intro c hc
    obtain ⟨a, b⟩ := resolve_sub hR hl ((h.space.inv k hk hM).subs c hc)
    exact ⟨a, b⟩
  refine ⟨hM, hA, getMembers_spec hl h.space.mapLen (h.space.inv k hk hM), ?_, ?_, hsub⟩
  · obtain ⟨s, e1, e2⟩ := h.cents.2 k hk hA
    exact ⟨s, e1, e2.vals⟩
  · obtain ⟨r, e1, e2⟩ := h.repVals k hM hA
    rw [e2]
    exact (hsub r e1).2

theorem half_fin (ρ : Rounding) (st : ℝ) : div (F.fin st : F ρ) (ofInt 2) = F.fin (ρ.f (st / 2)) := by
  rw [ofInt_F, div_fin _ _ (by norm_num)]
  norm_num

/-- C26 for every rounding and either distance: the distance from the representative to any member, as the
library computes it without dropout, is at most the computed half of the threshold. -/
theorem C26_within_half_rounded (env : Env (F ρ)) (ratio : ℝ) (hratio : env.ratio = F.fin ratio)
    (s s' : GSet (F ρ)) (L : Nat) (R : List (List ℝ)) (hR : s.ds.Holds L (R.map fins))
    (hfit : ∀ l ≤ L, RatioOk ρ ratio l) (name : String) (dn : DistName) (hdn : getDistance name = .ok dn)
    (st : ℝ) (hst : 0 ≤ st) (n : Int) (h : s.groupAllLengths env name (F.fin st) = (.ok n, s'))
    (l : Int) (ls : LocalSpace (F ρ)) (hls : GroupsOf s' l ls) (k : Nat) (hk : k < ls.groups.length) :
    ∃ rep, RepValues s.ds ls.groups[k] rep ∧ (rep.length : Int) = l ∧ ∃ vs, ls.groups[k].getMembers s.ds ls.memberMap = .ok vs ∧
      ∀ v ∈ vs, ∃ mem, SubValues s.ds v mem ∧ (mem.length : Int) = l ∧ ∃ x sa sb,
        dn.fn (F.fin ratio : F ρ) (Series.mk' (fins rep)) (Series.mk' (fins mem)) F.pinf = .ok (F.fin x, sa, sb) ∧
        x ≤ ρ.f (st / 2) := by
  obtain ⟨_, _, h1, h2, _⟩ := groupsOf_grouped h hls
  rw [hR.itemLength] at h2
  obtain ⟨dom, W, hf, hd⟩ := named_faithful (ρ := ρ) dn h1 (hfit l.toNat (by omega))
  obtain ⟨M, A, hi, _⟩ := grouped_real hratio hR h hls hdn hf
    (fun a b ha hb => ⟨(hd a b ha hb).1, (hd a b ha hb).2.1⟩)
  obtain ⟨hM, hA, g1, g2, g3, g4⟩ := hi.group (by omega) hR hk
  refine ⟨A[k], g2, by omega, _, g1, ?_⟩
  intro v hv
  obtain ⟨c, hc, rfl⟩ := List.mem_map.mp hv
  obtain ⟨c1, c2⟩ := g4 c hc
  obtain ⟨d1, d2, d3⟩ := hd A[k] (subVals R l c) g3 c2
  refine ⟨subVals R l c, c1, by omega, ?_⟩
  have hnear := hi.near (by
    intro a ha
    rw [half_fin, (hd a a ha ha).2.2, lt_iff]
    exact not_lt.mpr (ρ.nonneg (by linarith))) k hM hA c hc
  obtain ⟨v', sa, sb, r1, _, _, _, r2⟩ := hf.run _ _ _ _ F.pinf d1 (seriesOk_mk (ρ := ρ) A[k])
    (seriesOk_mk (ρ := ρ) (subVals R l c))
  rw [r2 rfl] at r1
  rcases hf.val _ _ d1 with e | ⟨x, _, e⟩
  · exact absurd e d2
  · rw [e] at r1 hnear
    refine ⟨x, sa, sb, r1, ?_⟩
    rw [half_fin, lt_iff] at hnear
    exact not_lt.mp hnear

end real

section exact

/-- Ratio conditions in exact arithmetic, for all lengths up to `L`. -/
theorem ratioOk_of {ratio : ℝ} {L : Nat} (h0 : 0 ≤ ratio) (hL : (L : ℝ) * ratio < 2147483648) :
    ∀ l ≤ L, RatioOk Rounding.exact ratio l := by
  intro l hl
  refine ⟨h0, lt_of_le_of_lt ?_ hL⟩
  exact mul_le_mul_of_nonneg_right (by exact_mod_cast hl) h0

theorem named_honest {ratio : ℝ} {name : String} {W} (hW : NamedDist ratio name W) {l : Int} (hl : 2 ≤ l)
    (hr : RatioOk Rounding.exact ratio l.toNat) :
    ∃ dn dom, getDistance name = .ok dn ∧ Honest (dn.fn (F.fin ratio)) dom W ∧
      ∀ a b : List ℝ, a.length = l.toNat → b.length = l.toNat →
        dom a b ∧ W a b ≠ F.pinf ∧ W a a = F.fin 0 ∧ W a b = W b a := by
  cases hW with
  | euclidean =>
    refine ⟨.euclidean, _, rfl, (LibDist.euclidean (junk := F.nan) (ratio := ratio)).honest, ?_⟩
    intro a b ha hb
    refine ⟨⟨by omega, by omega⟩, by simp, ?_, ?_⟩
    · simp only [← eud_exact, eud_self]
    · simp only [rms_comm a b (by omega : a.length = b.length)]
  | dtw =>
    refine ⟨.euclideanDtw, _, rfl, (LibDist.dtw (junk := F.nan) (ratio := ratio)).honest, ?_⟩
    intro a b ha hb
    have hab : RatioFits ratio a b := ⟨hr.nonneg, by rw [ha, hb, max_self]; exact hr.range⟩
    have haa : RatioFits ratio a a := ⟨hr.nonneg, by rw [ha, max_self]; exact hr.range⟩
    have hba : RatioFits ratio b a := ⟨hr.nonneg, by rw [ha, hb, max_self]; exact hr.range⟩
    refine ⟨⟨hab, by omega, by omega⟩, ?_, ?_, ?_⟩
    · rw [← wrd_eq_warped ratio a b hab.ok (by omega) (by omega), Ne,
        wrd_finite_iff _ _ _ (by omega) (by omega), ha, hb]
      omega
    · rw [← wrd_eq_warped ratio a a haa.ok (by omega) (by omega), wrd_self _ _ (by omega)]
    · rw [← wrd_eq_warped ratio a b hab.ok (by omega) (by omega),
        ← wrd_eq_warped ratio b a hba.ok (by omega) (by omega), wrd_comm]

variable (env : Env (F Rounding.exact)) (ratio : ℝ) (hratio : env.ratio = F.fin ratio)
  (s s' : GSet (F Rounding.exact)) (L : Nat) (R : List (List ℝ)) (hR : s.ds.Holds L (R.map fins))
  (h0 : 0 ≤ ratio) (hL : (L : ℝ) * ratio < 2147483648)

include hratio hR h0 hL

/-- C26 in exact arithmetic, for the distance used for grouping (root mean square difference for
"euclidean", banded warped distance for "euclidean_dtw"). -/
theorem C26_within_half {name : String} {W} (hW : NamedDist ratio name W) (st : ℝ) (hst : 0 ≤ st) (n : Int)
    (h : s.groupAllLengths env name (F.fin st) = (.ok n, s'))
    (l : Int) (ls : LocalSpace (F Rounding.exact)) (hls : GroupsOf s' l ls) (k : Nat)
    (hk : k < ls.groups.length) :
    ∃ rep, RepValues s.ds ls.groups[k] rep ∧ ∃ vs, ls.groups[k].getMembers s.ds ls.memberMap = .ok vs ∧
      ∀ v ∈ vs, ∃ mem x, SubValues s.ds v mem ∧ mem.length = rep.length ∧ W rep mem = F.fin x ∧ x ≤ st / 2 := by
  obtain ⟨_, _, h1, h2, _⟩ := groupsOf_grouped h hls
  rw [hR.itemLength] at h2
  obtain ⟨dn, dom, hdn, hf, hd⟩ := named_honest hW h1 (ratioOk_of h0 hL l.toNat (by omega))
  obtain ⟨M, A, hi, _⟩ := grouped_real hratio hR h hls hdn hf.toFaithful
    (fun a b ha hb => ⟨(hd a b ha hb).1, (hd a b ha hb).2.1⟩)
  obtain ⟨hM, hA, g1, g2, g3, g4⟩ := hi.group (by omega) hR hk
  refine ⟨A[k], g2, _, g1, ?_⟩
  intro v hv
  obtain ⟨c, hc, rfl⟩ := List.mem_map.mp hv
  obtain ⟨c1, c2⟩ := g4 c hc
  obtain ⟨d1, d2, d3⟩ := hd A[k] (subVals R l c) g3 c2
  have hnear := hi.near (by
    intro a ha
    rw [half_fin, (hd a a ha ha).2.2.1, lt_iff]
    exact not_lt.mpr (Rounding.exact.nonneg (by linarith))) k hM hA c hc
  rcases hf.val _ _ d1 with e | ⟨x, _, e⟩
  · exact absurd e d2
  · rw [half_fin, e, lt_iff] at hnear
    exact ⟨subVals R l c, x, c1, by rw [c2, g3], e, not_lt.mp hnear⟩

/-- C27: any two members of one group are within the threshold of each other (Euclidean distance). -/
theorem C27_members_close (st : ℝ) (hst : 0 ≤ st) (n : Int)
    (h : s.groupAllLengths env "euclidean" (F.fin st) = (.ok n, s'))
    (l : Int) (ls : LocalSpace (F Rounding.exact)) (hls : GroupsOf s' l ls) (k : Nat)
    (hk : k < ls.groups.length) :
    ∃ vs, ls.groups[k].getMembers s.ds ls.memberMap = .ok vs ∧
      ∀ v ∈ vs, ∀ v' ∈ vs, ∃ x y, SubValues s.ds v x ∧ SubValues s.ds v' y ∧ x.length = y.length ∧
        rms x y ≤ st := by
  obtain ⟨rep, _, vs, hvs, hall⟩ := C26_within_half env ratio hratio s s' L R hR h0 hL
    .euclidean st hst n h l ls hls k hk
  refine ⟨vs, hvs, ?_⟩
  intro v hv v' hv'
  obtain ⟨x, p, x1, x2, x3, x4⟩ := hall v hv
  obtain ⟨y, q, y1, y2, y3, y4⟩ := hall v' hv'
  refine ⟨x, y, x1, y1, by omega, ?_⟩
  simp only [F.fin.injEq] at x3 y3
  have := rms_triangle x rep y x2
  rw [rms_comm x rep x2, x3, y3] at this
  linarith

/-- C28: representatives of different groups of one length are more than half the threshold apart. -/
theorem C28_separated {name : String} {W} (hW : NamedDist ratio name W) (st : ℝ) (n : Int)
    (h : s.groupAllLengths env name (F.fin st) = (.ok n, s'))
    (l : Int) (ls : LocalSpace (F Rounding.exact)) (hls : GroupsOf s' l ls) (j k : Nat)
    (hj : j < ls.groups.length) (hk : k < ls.groups.length) (hjk : j ≠ k) :
    ∃ a b x, RepValues s.ds ls.groups[j] a ∧ RepValues s.ds ls.groups[k] b ∧ W a b = F.fin x ∧ st / 2 < x := by
  obtain ⟨_, _, h1, h2, _⟩ := groupsOf_grouped h hls
  rw [hR.itemLength] at h2
  obtain ⟨dn, dom, hdn, hf, hd⟩ := named_honest hW h1 (ratioOk_of h0 hL l.toNat (by omega))
  obtain ⟨M, A, hi, _⟩ := grouped_real hratio hR h hls hdn hf.toFaithful
    (fun a b ha hb => ⟨(hd a b ha hb).1, (hd a b ha hb).2.1⟩)
  obtain ⟨_, jA, _, j2, j3, _⟩ := hi.group (by omega) hR hj
  obtain ⟨_, kA, _, k2, k3, _⟩ := hi.group (by omega) hR hk
  obtain ⟨d1, d2, _, d4⟩ := hd A[j] A[k] j3 k3
  have hlt : lt (div (F.fin st) (ofInt 2)) (W A[j] A[k]) = true := by
    rcases Nat.lt_or_gt_of_ne hjk with hlt | hlt
    · exact hi.sep hf j k jA kA hlt
    · rw [d4]
      exact hi.sep hf k j kA jA hlt
  rcases hf.val _ _ d1 with e | ⟨x, _, e⟩
  · exact absurd e d2
  · rw [half_fin, e, lt_iff] at hlt
    exact ⟨A[j], A[k], x, j2, k2, e, hlt⟩

end exact

/-- A case for all theorems above: five series of length 3, any clock; grouping completes. -/
example (io : NumIO (F Rounding.exact)) (stod : Text → Stod (F Rounding.exact)) (doLog : Int → Bool) (st : ℝ) :
    let R : List (List ℝ) := [[0, 1, 2], [0, 1, 3], [5, 5, 5], [5, 5, 6], [9, 1, 2]]
    let env : Env (F Rounding.exact) := ⟨F.fin 1, F.nan, io, stod, doLog⟩
    let s : GSet (F Rounding.exact) := ⟨⟨some (R.map fins).flatten, 0, 3, 5, "", false⟩, none, none⟩
    s.ds.Holds 3 (R.map fins) ∧ ∃ n s', s.groupAllLengths env "euclidean" (F.fin st) = (.ok n, s') ∧
      (∃ ls, GroupsOf s' 2 ls ∧ ∃ M, Partition s.ds 2 ls M ∧ (1, 1) ∈ M.flatten) ∧
      s.groupAllLengths env "euclidean" (F.fin st) = s'.groupAllLengths env "euclidean" (F.fin st) := by
  intro R env s
  have hR : s.ds.Holds 3 (R.map fins) := by
    refine ⟨?_, rfl, rfl, [], by simp [s]⟩
    intro r hr
    simp only [R, List.map_cons, List.map_nil, List.mem_cons, List.not_mem_nil, or_false] at hr
    rcases hr with rfl | rfl | rfl | rfl | rfl <;> rfl
  have hfit := ratioOk_of (ratio := 1) (L := 3) (by norm_num) (by norm_num)
  obtain ⟨n, s', h⟩ := C36_completes_partial env 1 rfl s 3 R hR hfit "euclidean" (Or.inl rfl) (F.fin st)
    (Or.inl (by simp [R]))
  have hs' : s'.ds = s.ds := (groupAllLengths_ok h).1
  refine ⟨hR, n, s', h, ?_, ?_⟩
  · obtain ⟨h1, h2⟩ := C25_partition env "euclidean" (F.fin st) s s' n (by simp [s]) h
    obtain ⟨ls, hls⟩ := h1 2 (by norm_num) (by simp [s])
    obtain ⟨_, _, M, hM⟩ := h2 2 ls hls
    exact ⟨ls, hls, M, hM, (hM.all _).mpr (by simp [IsSub, s])⟩
  · obtain ⟨m, s'', h'⟩ := C36_completes_partial env 1 rfl s' 3 R (by rw [hs']; exact hR) hfit "euclidean" (Or.inl rfl)
      (F.fin st) (Or.inl (by simp [R]))
    obtain ⟨a, b, _⟩ := C37_function_of_data env env rfl "euclidean" _ s s' s' s'' hs'.symm n m h h'
    rw [h, h', a, b]

end Onex
