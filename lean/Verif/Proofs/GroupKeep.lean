import Verif.Proofs.GroupStore
import Verif.Props.Grouping

/-!
# Group contents through grouping, matching, saving and loading
-/

namespace Onex
open DataT Spec

set_option linter.unusedSectionVars false

variable {α : Type} [DataT α] {io : NumIO α} {P : α → Prop} {rt rt6 : α → α}

/-- The values of a sub-series, for any number type. -/
theorem resolve_subView {ds : Dataset α} {L : Nat} {R : List (List α)} (h : ds.Holds L R) {l : Int}
    (hl : 1 ≤ l) {c : Coord} (hc : IsSub ds.itemCount ds.itemLength l c) :
    ds.resolve (subView ds l c) = .ok (subVals R l c) ∧ (subVals R l c).length = l.toNat ∧
      ∀ v ∈ subVals R l c, ∃ r ∈ R, v ∈ r := by
  obtain ⟨i, s⟩ := c
  obtain ⟨⟨a1, a2⟩, a3, a4⟩ := hc
  simp only at a1 a2 a3 a4
  obtain ⟨i, rfl⟩ := Int.eq_ofNat_of_zero_le a1
  obtain ⟨s, rfl⟩ := Int.eq_ofNat_of_zero_le a3
  obtain ⟨l, rfl⟩ := Int.eq_ofNat_of_zero_le (by omega : 0 ≤ l)
  rw [h.itemCount] at a2
  rw [h.itemLength] at a4
  have hi : i < R.length := by omega
  obtain ⟨v, h1, h2, h3⟩ := C17_window_values h i s (s + l) hi (by omega) (by omega)
  have hg := getTimeSeries_sub (ds := ds) hl (c := ((i : Int), (s : Int)))
    ⟨⟨a1, by rw [h.itemCount]; exact a2⟩, a3, by rw [h.itemLength]; exact a4⟩
  simp only at hg
  rw [show ((s : Int) + (l : Int)) = ((s + l : Nat) : Int) by push_cast; rfl, h1] at hg
  rw [Res.ok.injEq] at hg
  have hrow : (R[i]).length = L := h.rows _ (List.getElem_mem hi)
  have hsv : subVals R (l : Int) ((i : Int), (s : Int)) = (R[i].drop s).take l := by
    unfold subVals
    simp [List.getD_eq_getElem?_getD, hi]
  rw [hsv]
  refine ⟨?_, ?_, ?_⟩
  · rw [← hg, h3]
    congr 3
    omega
  · simp only [List.length_take, List.length_drop, hrow, Int.toNat_natCast]
    omega
  · intro x hx
    exact ⟨R[i], List.getElem_mem hi, List.mem_of_mem_drop (List.mem_of_mem_take hx)⟩

/-- The contents of groups of one length that were just made. -/
theorem groupsAt_store {ds : Dataset α} {L : Nat} {R : List (List α)} (hR : ds.Holds L R)
    (hP : ∀ r ∈ R, ∀ v ∈ r, P v) {d : Dist α} {th : α} {l : Int} (hl : 1 ≤ l) {ls : LocalSpace α}
    (h : groupsAt ds d th l = .ok ls) : ∃ C, StoreOk P ds l ls C := by
  obtain ⟨M, h1, h2, _⟩ := groupsAt_partition (by rw [hR.itemCount]; omega) hl h
  have key : ∀ (k : Nat) (hk : k < ls.groups.length) (hM : k < M.length), ∃ r ∈ M[k],
      IsSub ds.itemCount ds.itemLength l r ∧ ls.groups[k].centroid.src = .view (subView ds l r) := by
    intro k hk hM
    obtain ⟨r, e, e'⟩ := h2 k hk hM
    have hr := List.mem_of_getLast? e
    exact ⟨r, hr, (h1.inv k hk hM).subs r hr, e'⟩
  refine ⟨M.map fun m => (subVals R l (m.getLast?.getD (0, 0)), m), ?_, ?_, ?_, ?_, ?_⟩
  · rw [List.map_map]
    have : (Prod.snd ∘ fun m : List Coord => (subVals R l (m.getLast?.getD (0, 0)), m)) = id := rfl
    rw [this, List.map_id]
    exact h1
  · intro k hk hC
    have hM : k < M.length := by simpa using hC
    obtain ⟨r, e, e'⟩ := h2 k hk hM
    have hr := List.mem_of_getLast? e
    obtain ⟨a1, _⟩ := resolve_subView hR hl ((h1.inv k hk hM).subs r hr)
    refine ⟨{ vals := subVals R l r, cache := ls.groups[k].centroid.cache }, ?_, ?_⟩
    · unfold Cent.resolve
      rw [e']
      simp only [a1]
      rfl
    · simp [e]
  all_goals
    intro x hx
    obtain ⟨m, hm, rfl⟩ := List.mem_map.mp hx
    obtain ⟨k, hM, rfl⟩ := List.getElem_of_mem hm
    have hk : k < ls.groups.length := by rw [h1.card]; exact hM
    obtain ⟨r, e, e'⟩ := h2 k hk hM
    have hr := List.mem_of_getLast? e
    obtain ⟨a1, a2, a3⟩ := resolve_subView hR hl ((h1.inv k hk hM).subs r hr)
  · simp only [e]
    exact a2
  · intro v hv
    simp only [e] at hv
    obtain ⟨row, b1, b2⟩ := a3 v hv
    exact hP row b1 v b2
  · intro e0
    simp only at e0
    rw [e0] at hr
    simp at hr

theorem grouped_stored {env : Env α} {name : String} {th : α} {s s' : GSet α} {n : Int} {L : Nat}
    {R : List (List α)} (hR : s.ds.Holds L R) (hP : ∀ r ∈ R, ∀ v ∈ r, P v)
    (h : s.groupAllLengths env name th = (.ok n, s')) :
    s'.ds = s.ds ∧ s'.threshold = some th ∧ ∃ gs CC dn, s'.groups = some gs ∧
      getDistance gs.distanceName = .ok dn ∧ StoredAll P s.ds L gs.locals CC := by
  obtain ⟨a1, a2, gs, dn, a3, a4, a5, a6⟩ := groupAllLengths_ok h
  have key : ∀ l : Int, ∃ C, 2 ≤ l → l ≤ L → ∃ ls, vget gs.locals l = .ok (some ls) ∧ StoreOk P s.ds l ls C := by
    intro l
    by_cases hl : 2 ≤ l ∧ l ≤ L
    · obtain ⟨ls, b1, b2⟩ := a6.at_ l hl.1 (by rw [hR.itemLength]; exact hl.2)
      obtain ⟨C, hC⟩ := groupsAt_store hR hP (by omega) b1
      exact ⟨C, fun _ _ => ⟨ls, b2, hC⟩⟩
    · exact ⟨[], fun h1 h2 => absurd ⟨h1, h2⟩ hl⟩
  choose CC hCC using key
  exact ⟨a1, a2, gs, CC, dn, a3, by rw [a4]; exact a5, ⟨by rw [a6.size, hR.itemLength], hCC,
    fun l h1 h2 h3 => a6.short l h1 h2 (by rw [hR.itemLength]; exact h3)⟩⟩

/-! ## Matches change caches only -/

theorem SpaceInv.sameUpTo {ds : Dataset α} {l : Int} {ls : LocalSpace α} {M : List (List Coord)}
    (h : SpaceInv ds l ls M) {gs : List (Group α)} (hg : SameUpTo ls.groups gs) :
    SpaceInv ds l { ls with groups := gs } M := by
  refine ⟨h.length, h.subCount, h.mapLen, by rw [← h.card]; exact hg.1, ?_, h.nodup⟩
  intro k h1 h2
  simp only at h1
  have h3 : k < ls.groups.length := by rw [← hg.1]; exact h1
  obtain ⟨x, hx⟩ := hg.2 k h3 h1
  simp only [hx]
  exact (h.inv k h3 h2).recache x

theorem StoreOk.same {ds : Dataset α} {l : Int} {ls : LocalSpace α} {C : List (Content α)}
    (h : StoreOk P ds l ls C) {gs : List (Group α)} (hg : SameUpTo ls.groups gs) :
    StoreOk P ds l { ls with groups := gs } C := by
  refine ⟨h.space.sameUpTo hg, ?_, h.clen, h.good, h.full⟩
  intro k h1 h2
  simp only at h1
  have h3 : k < ls.groups.length := by rw [← hg.1]; exact h1
  obtain ⟨x, hx⟩ := hg.2 k h3 h1
  obtain ⟨c, c1, c2⟩ := h.cent k h3 h2
  simp only [hx]
  unfold recache Cent.resolve at *
  simp only
  split at c1
  · rename_i vals e
    rw [Res.ok.injEq] at c1
    subst c1
    exact ⟨_, rfl, c2⟩
  · rename_i v e
    obtain ⟨vals, e1, e2⟩ := Res.bind_eq_ok.mp c1
    simp only [Res.pure_eq, Res.ok.injEq] at e2
    subst e2
    rw [e1]
    exact ⟨_, rfl, c2⟩

theorem searchStep_stored {ds ds' : Dataset α} {L : Nat} {CC : Int → List (Content α)} {d : Dist α}
    {s s' : SearchState α} {i : Int} (h : StoredAll P ds L s.locals CC) (he : searchStep ds' d s i = .ok s') :
    StoredAll P ds L s'.locals CC := by
  unfold searchStep at he
  obtain ⟨e, h1, he⟩ := Res.bind_eq_ok.mp he
  rcases e with _ | ls
  · simp at he
  simp only at he
  obtain ⟨⟨⟨k, dist⟩, ls', q⟩, h2, he⟩ := Res.bind_eq_ok.mp he
  obtain ⟨lc, h3, he⟩ := Res.bind_eq_ok.mp he
  unfold LocalSpace.getBestGroup at h2
  obtain ⟨ns, h4, h2⟩ := Res.bind_eq_ok.mp h2
  simp only [Res.pure_eq, Res.ok.injEq, Prod.mk.injEq] at h2
  obtain ⟨_, hls, _⟩ := h2
  have hsame := (nearest_shape _ _ _ _ _ _ h4).1
  have hkey : StoredAll P ds L lc CC := by
    refine ⟨?_, ?_, ?_⟩
    · rw [← h.size]
      simp only [len, vset_len h3]
    · intro l c1 c2
      obtain ⟨lsl, b1, b2⟩ := h.at_ l c1 c2
      rw [vget_vset h3]
      by_cases e : l = i
      · subst e
        rw [h1] at b1
        simp only [Res.ok.injEq, Option.some.injEq] at b1
        subst b1
        rw [if_pos rfl]
        refine ⟨ls', rfl, ?_⟩
        rw [← hls]
        exact b2.same hsame
      · rw [if_neg e]
        exact ⟨lsl, b1, b2⟩
    · intro l c1 c2 c3
      rw [vget_vset h3]
      by_cases e : l = i
      · subst e
        rw [h.short l c1 c2 c3] at h1
        simp at h1
      · rw [if_neg e]
        exact h.short l c1 c2 c3
  simp only at he
  split at he <;> (simp only [Res.pure_eq, Res.ok.injEq] at he; subst he; exact hkey)

theorem searchLoop_stored {ds ds' : Dataset α} {L : Nat} {CC : Int → List (Content α)} {d : Dist α} :
    ∀ (is : List Int) (s s' : SearchState α), StoredAll P ds L s.locals CC → searchLoop ds' d is s = .ok s' →
      StoredAll P ds L s'.locals CC
  | [], s, s', h, he => by
    simp only [searchLoop, Res.ok.injEq] at he
    subst he
    exact h
  | i :: is, s, s', h, he => by
    unfold searchLoop at he
    obtain ⟨t, h1, h2⟩ := Res.bind_eq_ok.mp he
    exact searchLoop_stored is t s' (searchStep_stored h h1) h2

/-- A match leaves the contents of all groups alone. -/
theorem match_stored {env : Env α} {query : Series α} {s s' : GSet α} {c : Cand α} {gs : GlobalSpace α} {L : Nat}
    {CC : Int → List (Content α)} (hg : s.groups = some gs) (h : StoredAll P s.ds L gs.locals CC)
    (he : s.getBestMatch env query = (.ok c, s')) :
    s'.ds = s.ds ∧ s'.threshold = s.threshold ∧ ∃ gs', s'.groups = some gs' ∧ gs'.distanceName = gs.distanceName ∧
      StoredAll P s.ds L gs'.locals CC := by
  unfold GSet.getBestMatch at he
  simp only [hg] at he
  split at he
  · rename_i c' gs' hm
    simp only [Prod.mk.injEq, Res.ok.injEq] at he
    obtain ⟨_, rfl⟩ := he
    refine ⟨rfl, rfl, gs', rfl, ?_⟩
    unfold GlobalSpace.getBestMatch at hm
    split at hm
    · simp at hm
    obtain ⟨order, _, hm⟩ := Res.bind_eq_ok.mp hm
    obtain ⟨st, h2, hm⟩ := Res.bind_eq_ok.mp hm
    have hst := searchLoop_stored _ _ _ h h2
    split at hm
    · simp at hm
    obtain ⟨e, _, hm⟩ := Res.bind_eq_ok.mp hm
    split at hm
    · simp at hm
    obtain ⟨g, _, hm⟩ := Res.bind_eq_ok.mp hm
    obtain ⟨cand, _, hm⟩ := Res.bind_eq_ok.mp hm
    simp only [Res.pure_eq, Res.ok.injEq, Prod.mk.injEq] at hm
    obtain ⟨_, rfl⟩ := hm
    exact ⟨rfl, hst⟩
  · simp at he
  · simp at he

/-! ## Saving and loading a dataset's groups -/

/-- What `saveGroups` of a dataset writes. -/
def fileText (io : NumIO α) (st : α) (cnt : Int) (L : Nat) (CC : Int → List (Content α)) (name : String) : Text :=
  showInt 1 ++ ' ' :: (io.show6 st ++ ' ' :: (showInt cnt ++ ' ' :: (showInt (L : Int) ++ '\n' :: spaceText io CC L name)))

theorem save_spec {env : Env α} {s : GSet α} {gs : GlobalSpace α} {L : Nat} {CC : Int → List (Content α)} {st : α}
    (hg : s.groups = some gs) (hth : s.threshold = some st) (hL : s.ds.itemLength = L)
    (h : StoredAll P s.ds L gs.locals CC) :
    s.saveGroups env true false = .ok (fileText env.io st s.ds.itemCount L CC gs.distanceName) := by
  unfold GSet.saveGroups
  simp only [hg, hth, if_true]
  rw [globalSave_spec h, Res.bind_ok, hL]
  rfl

theorem load_content {env : Env α} (hio : IOok env.io P rt rt6) {t : GSet α} {L : Nat} {CC : Int → List (Content α)}
    (hst : ∀ l : Int, 2 ≤ l → l ≤ L → ReadOk P t.ds.itemCount t.ds.itemLength l (CC l))
    (hL : t.ds.itemLength = L) (hcnt : 0 ≤ t.ds.itemCount)
    (hcnt' : t.ds.itemCount ≤ 2147483647) (hL' : (L : Int) < 2147483647)
    {name : String} {dn : DistName} (hname : getDistance name = .ok dn) {st : α} (hP : P st) :
    ∃ n locals', t.loadGroups env (some (fileText env.io st t.ds.itemCount L CC name)) =
        (.ok n, { t with groups := some { locals := locals', distanceName := name }, threshold := some (rt6 st) }) ∧
      LoadedAll rt t.ds L locals' CC ∧ n = (locals'.map entryGroups).sum := by
  have h0 := At.start (fileText env.io st t.ds.itemCount L CC name)
  unfold fileText at h0
  obtain ⟨s1, e1, h1⟩ := readInt_show (by decide) rfl h0
  obtain ⟨s2, e2, h2⟩ := readData_show (hio.word6 st hP) (hio.read6 st hP) h1
  obtain ⟨s3, e3, h3⟩ := readInt_show (by simp only [inIntRange, decide_eq_true_eq]; omega) rfl h2
  obtain ⟨s4, e4, h4⟩ := readInt_show (by simp only [inIntRange, decide_eq_true_eq]; omega) rfl h3
  obtain ⟨n, lc, e5, c1, c2⟩ := globalLoad_content hio hst hL hcnt hL' hname h4
  refine ⟨n, lc, ?_, c1, c2⟩
  unfold GSet.loadGroups fileText
  simp only [e1, e2, e3, e4]
  rw [if_neg (by simp), if_neg (by simp), if_neg (by simp [hL])]
  simp only [GSet.reset, e5]

theorem load_spec {env : Env α} (hio : IOok env.io P rt rt6) {ds' : Dataset α} {t : GSet α} {L : Nat}
    {locals : List (Option (LocalSpace α))} {CC : Int → List (Content α)}
    (hst : StoredAll P ds' L locals CC) (hc : ds'.itemCount = t.ds.itemCount)
    (hl : ds'.itemLength = t.ds.itemLength) (hL : t.ds.itemLength = L) (hcnt : 0 ≤ t.ds.itemCount)
    (hcnt' : t.ds.itemCount ≤ 2147483647)
    (hsize : t.ds.itemCount * t.ds.itemLength ≤ 2147483647) (hL' : (L : Int) < 2147483647)
    {name : String} {dn : DistName} (hname : getDistance name = .ok dn) {st : α} (hP : P st) :
    ∃ n locals', t.loadGroups env (some (fileText env.io st ds'.itemCount L CC name)) =
        (.ok n, { t with groups := some { locals := locals', distanceName := name }, threshold := some (rt6 st) }) ∧
      LoadedAll rt t.ds L locals' CC ∧ n = (locals'.map entryGroups).sum := by
  rw [hc]
  refine load_content hio (fun l l2 lL => ?_) hL hcnt hcnt' hL' hname hP
  obtain ⟨_, _, b1⟩ := hst.at_ l l2 lL
  have hr := content_range b1 (by omega) (by rw [hc]; exact hcnt) (by rw [hc, hl]; exact hsize)
  rw [hc, hl] at hr
  exact ⟨b1.clen, b1.good, b1.space.nodup, hr⟩

end Onex
