import Verif.Proofs.GroupFile
import Mathlib.Data.List.Pairwise
import Mathlib.Tactic.Ring

/-!
# Reading what was written: all groups of all lengths
-/

namespace Onex
open DataT Spec

set_option linter.unusedSectionVars false

variable {α : Type} [DataT α] {io : NumIO α} {P : α → Prop} {rt rt6 : α → α}

/-- The content of a group: the values of its representative and its members. -/
abbrev Content (α : Type) := List α × List Coord

/-- Groups of one length with contents `C` that can be written and read back. -/
structure StoreOk (P : α → Prop) (ds : Dataset α) (l : Int) (ls : LocalSpace α) (C : List (Content α)) : Prop where
  space : SpaceInv ds l ls (C.map Prod.snd)
  cent : ∀ (k : Nat) (h : k < ls.groups.length) (h' : k < C.length),
    ∃ c, ls.groups[k].centroid.resolve ds = .ok c ∧ c.vals = C[k].1
  clen : ∀ x ∈ C, x.1.length = l.toNat
  good : ∀ x ∈ C, ∀ v ∈ x.1, P v
  full : ∀ x ∈ C, x.2 ≠ []

/-- Groups of one length as written. -/
def groupsText (io : NumIO α) : List (Content α) → Text
  | [] => []
  | x :: C => groupText io x ++ groupsText io C

def localText (io : NumIO α) (C : List (Content α)) : Text :=
  showInt C.length ++ '\n' :: groupsText io C

theorem saveGroupList_spec {ds : Dataset α} {l : Int} {mm : List Membership}
    (hmm : len mm = ds.itemCount * (ds.itemLength - l + 1)) : ∀ (gs : List (Group α)) (C : List (Content α)),
    gs.length = C.length →
    (∀ (k : Nat) (h : k < gs.length) (h' : k < C.length), GroupInv ds l mm gs[k] C[k].2 ∧
      ∃ c, gs[k].centroid.resolve ds = .ok c ∧ c.vals = C[k].1) →
    saveGroupList io ds mm false gs = .ok (groupsText io C)
  | [], [], _, _ => rfl
  | [], _ :: _, h, _ => by simp at h
  | _ :: _, [], h, _ => by simp at h
  | g :: gs, x :: C, hl, hk => by
    obtain ⟨h1, h2⟩ := hk 0 (by simp) (by simp)
    simp only [List.getElem_cons_zero] at h1 h2
    have hrec := saveGroupList_spec hmm gs C (by simpa using hl) (fun k h h' => by
      have := hk (k + 1) (by simpa using h) (by simpa using h')
      simpa using this)
    unfold saveGroupList
    simp only [Bool.false_eq_true, if_false]
    rw [saveGroup_spec hmm h1 h2, Res.bind_ok, hrec]
    rfl

theorem localSave_spec {ds : Dataset α} {l : Int} {ls : LocalSpace α} {C : List (Content α)}
    (h : StoreOk P ds l ls C) : ls.saveGroups io ds false = .ok (localText io C) := by
  have hcard : ls.groups.length = C.length := by simpa using h.space.card
  unfold LocalSpace.saveGroups
  rw [saveGroupList_spec h.space.mapLen ls.groups C hcard (fun k h1 h2 => by
    refine ⟨?_, h.cent k h1 h2⟩
    have := h.space.inv k h1 (by simpa using h2)
    simpa using this), Res.bind_ok]
  simp only [len, hcard]
  rfl

/-! ## Sizes -/

theorem content_range {ds : Dataset α} {l : Int} {ls : LocalSpace α} {C : List (Content α)}
    (h : StoreOk P ds l ls C) (hl : 1 ≤ l) (hcnt : 0 ≤ ds.itemCount)
    (hsize : ds.itemCount * ds.itemLength ≤ 2147483647) :
    inIntRange (C.length : Int) = true ∧ ∀ x ∈ C, inIntRange (x.2.length : Int) = true ∧
      (∀ c ∈ x.2, IsSub ds.itemCount ds.itemLength l c ∧ inIntRange c.1 = true ∧ inIntRange c.2 = true) := by
  have hsub : ∀ x ∈ C, ∀ c ∈ x.2, IsSub ds.itemCount ds.itemLength l c := by
    intro x hx c hc
    obtain ⟨k, hk, rfl⟩ := List.getElem_of_mem hx
    have hcard : ls.groups.length = C.length := by simpa using h.space.card
    have := (h.space.inv k (by omega) (by simpa using hk)).subs c
    simp only [List.getElem_map] at this
    exact this hc
  have hflat : ∀ c ∈ (C.map Prod.snd).flatten, IsSub ds.itemCount ds.itemLength l c := by
    intro c hc
    obtain ⟨m, hm, hc⟩ := List.mem_flatten.mp hc
    obtain ⟨x, hx, rfl⟩ := List.mem_map.mp hm
    exact hsub x hx c hc
  have htot := members_le h.space.mapLen hflat h.space.nodup
  have hmm := h.space.mapLen
  have hmono : ds.itemCount * (ds.itemLength - l + 1) ≤ ds.itemCount * ds.itemLength :=
    mul_le_mul_of_nonneg_left (by omega) hcnt
  have hml : ((C.map Prod.snd).flatten.length : Int) ≤ 2147483647 := by
    simp only [len] at hmm
    omega
  have hlenle : ∀ D : List (Content α), (∀ x ∈ D, x.2 ≠ []) → D.length ≤ (D.map Prod.snd).flatten.length := by
    intro D
    induction D with
    | nil => simp
    | cons x D ih =>
      intro hD
      have := ih (fun y hy => hD y (by simp [hy]))
      have hx := List.length_pos_iff.mpr (hD x (by simp))
      simp only [List.length_cons, List.map_cons, List.flatten_cons, List.length_append]
      omega
  have hC := hlenle C h.full
  refine ⟨by simp only [inIntRange, decide_eq_true_eq]; omega, ?_⟩
  intro x hx
  have hxl : x.2.length ≤ (C.map Prod.snd).flatten.length :=
    List.Sublist.length_le (List.sublist_flatten_of_mem (List.mem_map_of_mem hx))
  refine ⟨by simp only [inIntRange, decide_eq_true_eq]; omega, ?_⟩
  intro c hc
  have hs := hsub x hx c hc
  refine ⟨hs, ?_⟩
  obtain ⟨⟨a1, a2⟩, a3, a4⟩ := hs
  have b1 : ds.itemCount * 1 ≤ ds.itemCount * ds.itemLength := mul_le_mul_of_nonneg_left (by omega) hcnt
  have b2 : 1 * ds.itemLength ≤ ds.itemCount * ds.itemLength := mul_le_mul_of_nonneg_right (by omega) (by omega)
  simp only [inIntRange, decide_eq_true_eq]
  constructor <;> omega

/-! ## Loading one length -/

/-- The groups of length `l` as read back from contents `C`. -/
structure LoadedOk (rt : α → α) (ds : Dataset α) (l : Int) (ls : LocalSpace α) (C : List (Content α)) : Prop where
  space : SpaceInv ds l ls (C.map fun x => x.2.reverse)
  cent : ∀ (k : Nat) (h : k < ls.groups.length) (h' : k < C.length),
    ls.groups[k].centroid = { src := .own (C[k].1.map rt), cache := none }

theorem nodup_reversed {C : List (Content α)} (h : (C.map Prod.snd).flatten.Nodup) :
    (C.map fun x => x.2.reverse).flatten.Nodup := by
  rw [List.nodup_flatten] at h ⊢
  refine ⟨?_, ?_⟩
  · intro l hl
    obtain ⟨x, hx, rfl⟩ := List.mem_map.mp hl
    exact List.nodup_reverse.mpr (h.1 _ (List.mem_map_of_mem hx))
  · rw [List.pairwise_map] at h ⊢
    refine h.2.imp ?_
    intro a b hd x hx hx'
    exact hd (List.mem_reverse.mp hx) (List.mem_reverse.mp hx')

theorem SpaceInv.addGroup {ds : Dataset α} {l : Int} {ls : LocalSpace α} {M : List (List Coord)}
    (h : SpaceInv ds l ls M) {g : Group α} {mm : List Membership} {ms : List Coord}
    (hg : GroupInv ds l mm g ms) (hlen : len mm = len ls.memberMap)
    (hkeep : ∀ (g : Group α) (ms' : List Coord), GroupInv ds l ls.memberMap g ms' → (∀ c ∈ ms, c ∉ ms') →
      GroupInv ds l mm g ms') (hdis : ∀ m ∈ M, ∀ c ∈ ms, c ∉ m) (hnd : (M ++ [ms]).flatten.Nodup) :
    SpaceInv ds l { ls with groups := ls.groups ++ [g], memberMap := mm } (M ++ [ms]) := by
  refine ⟨h.length, h.subCount, hlen.trans h.mapLen, by simp [h.card], ?_, hnd⟩
  intro k h1 h2
  simp only [List.length_append, List.length_singleton] at h1 h2
  by_cases hk : k < M.length
  · have hk' : k < ls.groups.length := by rw [h.card]; exact hk
    simp only [List.getElem_append_left hk, List.getElem_append_left hk']
    exact hkeep _ _ (h.inv k hk' hk) (hdis _ (List.getElem_mem hk))
  · have : k = M.length := by omega
    subst this
    have hc := h.card
    simp only [List.getElem_concat_length]
    have e : (ls.groups ++ [g])[M.length]'(by simp [hc]) = g := by
      rw [List.getElem_append_right (by omega)]
      simp [hc]
    rw [e]
    exact hg

theorem toUnsigned_of {z : Int} (h0 : 0 ≤ z) (h1 : z ≤ 2147483647) : toUnsigned z = z := by
  unfold toUnsigned
  exact Int.emod_eq_of_lt h0 (by omega)

theorem localLoad_spec (hio : IOok io P rt rt6) {ds : Dataset α} {l : Int} {C : List (Content α)}
    (hclen : ∀ x ∈ C, x.1.length = l.toNat) (hgood : ∀ x ∈ C, ∀ v ∈ x.1, P v)
    (hnd : (C.map Prod.snd).flatten.Nodup)
    (hrange : inIntRange (C.length : Int) = true ∧ ∀ x ∈ C, inIntRange (x.2.length : Int) = true ∧
      (∀ c ∈ x.2, IsSub ds.itemCount ds.itemLength l c ∧ inIntRange c.1 = true ∧ inIntRange c.2 = true))
    {ls : LocalSpace α} (hnew : LocalSpace.new ds l = .ok ls) {s : Stream} {t : Text}
    (h : At s (localText io C ++ t)) :
    ∃ ls' s', ls.loadGroups io s = .ok ((C.length : Int), ls', s') ∧ LoadedOk rt ds l ls' C ∧ At s' t := by
  obtain ⟨i1, _, i3⟩ := spaceInv_new hnew
  unfold localText at h
  simp only [List.append_assoc, List.cons_append] at h
  obtain ⟨s1, e1, h1⟩ := readInt_show hrange.1 rfl h
  have hls : ({ ls with groups := [] } : LocalSpace α) = ls := by
    cases ls
    simp only at i3
    rw [i3]
  have hU : toUnsigned (C.length : Int) = (C.length : Int) := by
    have := hrange.1
    simp only [inIntRange, decide_eq_true_eq] at this
    exact toUnsigned_of (by omega) this.2
  have hloop : (forInt 0 (C.length : Int) (ls, s1) (fun i st => do
      let g : Group α := Group.new i st.1.length st.1.subCount
      let (g, mm, s) ← g.loadGroup io st.1.memberMap st.2
      return ({ st.1 with groups := st.1.groups ++ [g], memberMap := mm }, s))).Ensures fun st =>
        LoadedOk rt ds l st.1 C ∧ At st.2 t := by
    have := forInt_ensures (s := (ls, s1)) (lo := 0) (hi := (C.length : Int))
      (body := (fun i st => do
        let g : Group α := Group.new i st.1.length st.1.subCount
        let (g, mm, s) ← g.loadGroup io st.1.memberMap st.2
        return ({ st.1 with groups := st.1.groups ++ [g], memberMap := mm }, s)))
      (fun i st => LoadedOk rt ds l st.1 (C.take i.toNat) ∧ At st.2 (groupsText io (C.drop i.toNat) ++ t))
      (by omega) ⟨⟨by simpa using i1, by intro k hk; simp [i3] at hk⟩, by simpa using h1⟩ ?_
    · refine this.mono ?_
      rintro st ⟨a1, a2⟩
      simp only [Int.toNat_natCast, List.take_length, List.drop_length] at a1 a2
      exact ⟨a1, by simpa [groupsText] using a2⟩
    · rintro i st hi0 hi1 ⟨a1, a2⟩
      obtain ⟨i, rfl⟩ := Int.eq_ofNat_of_zero_le hi0
      have hi : i < C.length := by omega
      have hmem : C[i] ∈ C := List.getElem_mem hi
      simp only [Int.toNat_natCast] at a1 a2
      rw [List.drop_eq_getElem_cons hi] at a2
      simp only [groupsText, List.append_assoc] at a2
      obtain ⟨g', mm', s', b1, b2, b3, b4, b5, b6⟩ := loadGroup_spec hio (hclen _ hmem) (hgood _ hmem)
        (fun c hc => ((hrange.2 _ hmem).2 c hc).1)
        ((List.nodup_flatten.mp hnd).1 _ (List.mem_map_of_mem hmem))
        (fun c hc => ((hrange.2 _ hmem).2 c hc).2) (hrange.2 _ hmem).1 a1.space.mapLen (i : Int) a2
      have hpw := (List.nodup_flatten.mp hnd).2
      rw [List.pairwise_map] at hpw
      have hdis : ∀ m ∈ (C.take i).map (fun x => x.2.reverse), ∀ c ∈ C[i].2.reverse, c ∉ m := by
        intro m hm c hc hcm
        obtain ⟨x, hx, rfl⟩ := List.mem_map.mp hm
        obtain ⟨j, hj, rfl⟩ := List.getElem_of_mem hx
        simp only [List.length_take] at hj
        rw [List.getElem_take, List.mem_reverse] at hcm
        exact List.pairwise_iff_getElem.mp hpw j i (by omega) hi (by omega) hcm (List.mem_reverse.mp hc)
      have htake : C.take (i + 1) = C.take i ++ [C[i]] := List.take_succ_eq_append_getElem hi
      have hnd' : ((C.take i).map (fun x => x.2.reverse) ++ [C[i].2.reverse]).flatten.Nodup := by
        have := nodup_reversed (C := C.take (i + 1)) (hnd.sublist
          (List.Sublist.flatten (List.Sublist.map _ (List.take_sublist _ _))))
        rw [htake, List.map_append] at this
        exact this
      have hspace := a1.space.addGroup b2 b3 (fun g ms' hg hd => b5 g ms' hg
        (fun c hc => hd c (List.mem_reverse.mpr hc))) hdis hnd'
      have hti : ((i : Int) + 1).toNat = i + 1 := by omega
      simp only [a1.space.length, a1.space.subCount, b1, Res.bind_ok, Res.pure_eq, Res.ensures_ok, hti]
      refine ⟨⟨?_, ?_⟩, b6⟩
      · rw [htake, List.map_append]
        have e : st.1.length = l := a1.space.length
        have e' : st.1.subCount = ds.itemLength - l + 1 := a1.space.subCount
        simp only [e, e'] at hspace
        exact hspace
      · have hc : st.1.groups.length = i := by
          have := a1.space.card
          simp only [List.length_map, List.length_take] at this
          omega
        intro k hk hk'
        simp only [List.length_append, List.length_singleton] at hk
        by_cases hki : k < i
        · have hks : k < st.1.groups.length := by omega
          have hkt : k < (C.take i).length := by simp; omega
          simp only [List.getElem_append_left hks]
          have := a1.cent k hks hkt
          rw [this]
          simp
        · have : k = i := by omega
          subst this
          have e : (st.1.groups ++ [g'])[k]'(by simp [hc]) = g' := by
            rw [List.getElem_append_right (by omega)]
            simp [hc]
          rw [e, b4]
          simp
  obtain ⟨⟨ls', s'⟩, e2, c1, c2⟩ := hloop
  refine ⟨ls', s', ?_, c1, c2⟩
  unfold LocalSpace.loadGroups
  simp only [e1, hls, hU]
  exact congrArg (fun r => r >>= fun st => pure ((C.length : Int), st.1, st.2)) e2

/-! ## All lengths -/

/-- Groups of all lengths with contents `CC`. -/
structure StoredAll (P : α → Prop) (ds : Dataset α) (L : Nat) (locals : List (Option (LocalSpace α)))
    (CC : Int → List (Content α)) : Prop where
  size : len locals = L + 1
  at_ : ∀ l : Int, 2 ≤ l → l ≤ L → ∃ ls, vget locals l = .ok (some ls) ∧ StoreOk P ds l ls (CC l)
  short : ∀ l : Int, 0 ≤ l → l < 2 → l ≤ L → vget locals l = .ok none

/-- Groups of `j` lengths from `l` on, as written. -/
def allText (io : NumIO α) (CC : Int → List (Content α)) : Int → Nat → Text
  | _, 0 => []
  | l, j + 1 => localText io (CC l) ++ allText io CC (l + 1) j

theorem saveLocals_spec {ds : Dataset α} {CC : Int → List (Content α)} :
    ∀ (entries : List (Option (LocalSpace α))) (l : Int),
      (∀ (k : Nat) (h : k < entries.length), ∃ ls, entries[k] = some ls ∧ StoreOk P ds (l + k) ls (CC (l + k))) →
      saveLocals io ds false entries = .ok (allText io CC l entries.length)
  | [], _, _ => rfl
  | e :: es, l, h => by
    obtain ⟨ls, h1, h2⟩ := h 0 (by simp)
    simp only [List.getElem_cons_zero] at h1
    subst h1
    have hrec := saveLocals_spec es (l + 1) (fun k hk => by
      obtain ⟨ls, a1, a2⟩ := h (k + 1) (by simpa using hk)
      refine ⟨ls, by simpa using a1, ?_⟩
      have : l + ((k + 1 : Nat) : Int) = l + 1 + (k : Int) := by push_cast; ring
      rw [this] at a2
      exact a2)
    have h2' : StoreOk P ds l ls (CC l) := by simpa using h2
    unfold saveLocals
    rw [localSave_spec h2', Res.bind_ok, hrec]
    rfl

/-- What `saveGroups` of a space writes. -/
def spaceText (io : NumIO α) (CC : Int → List (Content α)) (L : Nat) (name : String) : Text :=
  showInt 2 ++ ' ' :: (showInt ((L : Int) + 1) ++ '\n' :: (name.toList ++ '\n' :: allText io CC 2 (L - 1)))

theorem globalSave_spec {ds : Dataset α} {L : Nat} {gs : GlobalSpace α} {CC : Int → List (Content α)}
    (h : StoredAll P ds L gs.locals CC) :
    gs.saveGroups io ds false = .ok (spaceText io CC L gs.distanceName) := by
  have hs := h.size
  simp only [len] at hs
  have hdl : (gs.locals.drop 2).length = L - 1 := by simp; omega
  have := saveLocals_spec (io := io) (P := P) (ds := ds) (CC := CC) (gs.locals.drop 2) 2 (fun k hk => by
    obtain ⟨ls, a1, a2⟩ := h.at_ (2 + (k : Int)) (by omega) (by omega)
    refine ⟨ls, ?_, a2⟩
    rw [List.getElem_drop]
    have hk2 : 2 + k < gs.locals.length := by omega
    have e := vget_nat hk2
    have hcast : ((2 + k : Nat) : Int) = 2 + (k : Int) := by push_cast; rfl
    rw [hcast, a1, Res.ok.injEq] at e
    exact e.symm)
  unfold GlobalSpace.saveGroups
  rw [this, Res.bind_ok, hdl, h.size]
  rfl

/-- Groups of all lengths as read back. -/
structure LoadedAll (rt : α → α) (ds : Dataset α) (L : Nat) (locals : List (Option (LocalSpace α)))
    (CC : Int → List (Content α)) : Prop where
  size : len locals = L + 1
  at_ : ∀ l : Int, 2 ≤ l → l ≤ L → ∃ ls, vget locals l = .ok (some ls) ∧ LoadedOk rt ds l ls (CC l)
  short : ∀ l : Int, 0 ≤ l → l < 2 → l ≤ L → vget locals l = .ok none

theorem getDistance_word {name : String} {dn : DistName} (h : getDistance name = .ok dn) :
    name.toList ≠ [] ∧ ∀ x ∈ name.toList, isSpace x = false := by
  unfold getDistance at h
  split at h
  · rename_i e
    subst e
    decide
  · split at h
    · rename_i e
      subst e
      decide
    · simp at h

/-- Contents of the groups of one length that can be read from a file. -/
structure ReadOk (P : α → Prop) (cnt len l : Int) (C : List (Content α)) : Prop where
  clen : ∀ x ∈ C, x.1.length = l.toNat
  good : ∀ x ∈ C, ∀ v ∈ x.1, P v
  nodup : (C.map Prod.snd).flatten.Nodup
  range : inIntRange (C.length : Int) = true ∧ ∀ x ∈ C, inIntRange (x.2.length : Int) = true ∧
    (∀ c ∈ x.2, IsSub cnt len l c ∧ inIntRange c.1 = true ∧ inIntRange c.2 = true)

theorem globalLoad_content (hio : IOok io P rt rt6) {ds : Dataset α} {L : Nat} {CC : Int → List (Content α)}
    (hst : ∀ l : Int, 2 ≤ l → l ≤ L → ReadOk P ds.itemCount ds.itemLength l (CC l))
    (hL : ds.itemLength = L) (hcnt : 0 ≤ ds.itemCount)
    (hL' : (L : Int) < 2147483647) {name : String} {dn : DistName} (hname : getDistance name = .ok dn)
    {s : Stream} (h : At s (spaceText io CC L name)) :
    ∃ n locals', (GlobalSpace.fresh : GlobalSpace α).loadGroups io ds s =
        (.ok n, { locals := locals', distanceName := name }) ∧
      LoadedAll rt ds L locals' CC ∧ n = (locals'.map entryGroups).sum := by
  unfold spaceText at h
  obtain ⟨s1, e1, h1⟩ := readInt_show (by decide) rfl h
  obtain ⟨s2, e2, h2⟩ := readInt_show (z := (L : Int) + 1)
    (by simp only [inIntRange, decide_eq_true_eq]; omega) rfl h1
  obtain ⟨w1, w2⟩ := getDistance_word hname
  obtain ⟨s3, e3, h3⟩ := readName_word w1 w2 rfl h2
  have hone : ∀ l : Int, 2 ≤ l → l ≤ L → ∃ ls, LocalSpace.new ds l = .ok ls := by
    intro l h2 h3
    unfold LocalSpace.new
    simp only
    rw [if_neg]
    · exact ⟨_, rfl⟩
    · have : 0 ≤ ds.itemCount * (ds.itemLength - l + 1) := mul_nonneg hcnt (by omega)
      omega
  have hloop : (forInt 2 ((L : Int) + 1)
      ((0 : Int), (List.replicate (ds.itemLength + 1).toNat (none : Option (LocalSpace α))), s3) (fun i st => do
        let ls ← LocalSpace.new ds i
        let (n, ls, s) ← ls.loadGroups io st.2.2
        let locals ← vset st.2.1 i (some ls)
        return (st.1 + n, locals, s))).Ensures fun st =>
      LoadedAll rt ds L st.2.1 CC ∧ st.1 = (st.2.1.map entryGroups).sum := by
    by_cases hle : (2 : Int) ≤ (L : Int) + 1
    swap
    · rw [forInt_of_le (by omega), Res.ensures_ok]
      refine ⟨⟨by simp; omega, fun l a b => by omega, fun l a b c => vget_replicate_none a (by omega)⟩, ?_⟩
      simp [entryGroups]
    have := forInt_ensures
      (s := ((0 : Int), (List.replicate (ds.itemLength + 1).toNat (none : Option (LocalSpace α))), s3))
      (lo := 2) (hi := (L : Int) + 1)
      (body := (fun i st => do
        let ls ← LocalSpace.new ds i
        let (n, ls, s) ← ls.loadGroups io st.2.2
        let locals ← vset st.2.1 i (some ls)
        return (st.1 + n, locals, s)))
      (fun i st => len st.2.1 = (L : Int) + 1 ∧
        (∀ l : Int, 2 ≤ l → l < i → ∃ ls, vget st.2.1 l = .ok (some ls) ∧ LoadedOk rt ds l ls (CC l)) ∧
        (∀ l : Int, 0 ≤ l → (l < 2 ∨ i ≤ l) → l ≤ L → vget st.2.1 l = .ok none) ∧
        st.1 = (st.2.1.map entryGroups).sum ∧ At st.2.2 (allText io CC i ((L : Int) + 1 - i).toNat)) hle
      ⟨by simp; omega, fun l a b => by omega, fun l a b c => vget_replicate_none a (by omega),
        by simp [entryGroups], by
          have : ((L : Int) + 1 - 2).toNat = L - 1 := by omega
          rw [this]
          exact h3⟩ ?_
    · refine this.mono ?_
      rintro st ⟨a1, a2, a3, a4, a5⟩
      exact ⟨⟨a1, fun l b c => a2 l b (by omega), fun l b c d => a3 l b (Or.inl c) d⟩, a4⟩
    · rintro i ⟨n, lc, s⟩ hi0 hi1 ⟨a1, a2, a3, a4, a5⟩
      simp only at a1 a2 a3 a4 a5
      obtain ⟨ls0, b0⟩ := hone i hi0 (by omega)
      have b1 := hst i hi0 (by omega)
      have hj : ((L : Int) + 1 - i).toNat = ((L : Int) + 1 - (i + 1)).toNat + 1 := by omega
      rw [hj] at a5
      obtain ⟨ls', s', b2, b3, b4⟩ := localLoad_spec hio b1.clen b1.good b1.nodup b1.range b0 a5
      obtain ⟨lc', b5⟩ : ∃ x, vset lc i (some ls') = .ok x := ⟨_, vset_ok _ (by omega) (by omega)⟩
      simp only [b0, b2, b5, Res.bind_ok, Res.pure_eq, Res.ensures_ok]
      refine ⟨?_, ?_, ?_, ?_, b4⟩
      · simp only [len, vset_len b5] at a1 ⊢
        exact a1
      · intro l c1 c2
        rw [vget_vset b5]
        by_cases e : l = i
        · subst e
          rw [if_pos rfl]
          exact ⟨_, rfl, b3⟩
        · rw [if_neg e]
          exact a2 l c1 (by omega)
      · intro l c1 c2 c3
        rw [vget_vset b5, if_neg (by omega)]
        exact a3 l c1 (by omega) c3
      · have hold := a3 i (by omega) (Or.inr (le_refl _)) (by omega)
        rw [a4, (vset_eq_ok.mp b5).2, sum_set_none _ rfl _ _ _ (vget_eq_ok.mp hold).2]
        have := b3.space.card
        simp only [List.length_map] at this
        simp only [entryGroups, this]
  obtain ⟨⟨n, lc, s4⟩, e4, c1, c2⟩ := hloop
  refine ⟨n, lc, ?_, c1, c2⟩
  unfold GlobalSpace.loadGroups
  have hnm : String.ofList name.toList = name := String.ofList_toList
  simp only [e1, e2, e3, hnm, hname]
  rw [if_neg (by omega)]
  have u1 : toUnsigned 2 = 2 := rfl
  have u2 : toUnsigned ((L : Int) + 1) = (L : Int) + 1 := toUnsigned_of (by omega) (by omega)
  rw [u1, u2, e4]

theorem globalLoad_spec (hio : IOok io P rt rt6) {ds ds' : Dataset α} {L : Nat}
    {locals : List (Option (LocalSpace α))} {CC : Int → List (Content α)}
    (hst : StoredAll P ds' L locals CC) (hc : ds'.itemCount = ds.itemCount) (hl : ds'.itemLength = ds.itemLength)
    (hL : ds.itemLength = L) (hcnt : 0 ≤ ds.itemCount) (hsize : ds.itemCount * ds.itemLength ≤ 2147483647)
    (hL' : (L : Int) < 2147483647) {name : String} {dn : DistName} (hname : getDistance name = .ok dn)
    {s : Stream} (h : At s (spaceText io CC L name)) :
    ∃ n locals', (GlobalSpace.fresh : GlobalSpace α).loadGroups io ds s =
        (.ok n, { locals := locals', distanceName := name }) ∧
      LoadedAll rt ds L locals' CC ∧ n = (locals'.map entryGroups).sum := by
  refine globalLoad_content hio (fun l l2 lL => ?_) hL hcnt hL' hname h
  obtain ⟨_, _, b1⟩ := hst.at_ l l2 lL
  have hr := content_range b1 (by omega) (by rw [hc]; exact hcnt) (by rw [hc, hl]; exact hsize)
  rw [hc, hl] at hr
  exact ⟨b1.clen, b1.good, b1.space.nodup, hr⟩

end Onex
