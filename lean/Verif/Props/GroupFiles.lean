import Verif.Proofs.GroupKeep
import Verif.Proofs.Throws

/-!
# Properties C38 and C39: group files
-/

namespace Onex
open DataT Spec

set_option linter.unusedSectionVars false

section any
variable {α : Type} [DataT α] {io : NumIO α} {P : α → Prop} {rt rt6 : α → α}

/-- Groups read back are groups that can be stored again. -/
theorem LoadedOk.store {ds ds' : Dataset α} {l : Int} {ls ls' : LocalSpace α} {C : List (Content α)}
    (hio : IOok io P rt rt6) (h : StoreOk P ds l ls C) (h' : LoadedOk rt ds' l ls' C) :
    StoreOk P ds' l ls' (C.map fun x => (x.1.map rt, x.2.reverse)) := by
  refine ⟨?_, ?_, ?_, ?_, ?_⟩
  · rw [List.map_map]
    exact h'.space
  · intro k hk hC
    have hC' : k < C.length := by simpa using hC
    refine ⟨{ vals := C[k].1.map rt, cache := none }, ?_, by simp⟩
    rw [h'.cent k hk hC']
    rfl
  all_goals
    intro x hx
    obtain ⟨y, hy, rfl⟩ := List.mem_map.mp hx
  · simpa using h.clen y hy
  · intro v hv
    obtain ⟨w, hw, rfl⟩ := List.mem_map.mp hv
    exact hio.keep w (h.good y hy w hw)
  · simpa using h.full y hy

/-- What is known of all states whose groups can be stored. -/
theorem kept_inv (hio : IOok io P rt rt6) {cnt L : Nat} (hfit : SizeOk cnt L) {s : GSet α}
    (h : Kept io P cnt L s) :
    s.ds.itemCount = cnt ∧ s.ds.itemLength = L ∧ ∃ gs CC dn st, s.groups = some gs ∧ s.threshold = some st ∧ P st ∧
      getDistance gs.distanceName = .ok dn ∧ StoredAll P s.ds L gs.locals CC := by
  have hprod : (cnt : Int) * (L : Int) ≤ 2147483647 := by exact_mod_cast hfit.prod
  have h1 := hfit.count
  have h2 := hfit.length
  induction h with
  | grouped hR hc hP hth h =>
    obtain ⟨a1, a2, gs, CC, dn, a3, a4, a5⟩ := grouped_stored hR hP h
    rw [a1]
    exact ⟨by rw [hR.itemCount, hc], hR.itemLength, gs, CC, dn, _, a3, a2, hth, a4, a5⟩
  | matched hs h ih =>
    obtain ⟨b1, b2, gs, CC, dn, st, b3, b4, b5, b6, b7⟩ := ih
    obtain ⟨c1, c2, gs', c3, c4, c5⟩ := match_stored b3 b7 h
    rw [c1]
    exact ⟨b1, b2, gs', CC, dn, st, c3, by rw [c2, b4], b5, by rw [c4]; exact b6, c5⟩
  | @reloaded s env text t n t' hs he hsave hc hl hload ih =>
    subst he
    obtain ⟨b1, b2, gs, CC, dn, st, b3, b4, b5, b6, b7⟩ := ih
    have hs' := save_spec (env := env) b3 b4 b2 b7
    rw [hsave, Res.ok.injEq] at hs'
    obtain ⟨n', lc, d1, d2, d3⟩ := load_spec hio (t := t) b7 (by rw [b1, hc]) (by rw [b2, hl]) hl
      (by omega) (by omega) (by rw [hc, hl]; exact hprod) (by omega) b6 b5
    rw [← hs', hload] at d1
    simp only [Prod.mk.injEq, Res.ok.injEq] at d1
    obtain ⟨_, rfl⟩ := d1
    refine ⟨hc, hl, _, fun l => (CC l).map fun x => (x.1.map rt, x.2.reverse), dn, _, rfl, rfl,
      hio.keep6 _ b5, b6, d2.size, ?_, d2.short⟩
    intro l l1 l2
    obtain ⟨ls, e1, e2⟩ := b7.at_ l l1 l2
    obtain ⟨ls', e3, e4⟩ := d2.at_ l l1 l2
    exact ⟨ls', e3, e4.store hio e2⟩

/-- C38, for every number type: groups of a dataset reached by grouping, matching and loading are saved, and the file
loads into every dataset of the same shape, whatever its state. The call returns the number of groups; exactly
the lengths that had groups have groups; every group has the same count and members, and its representative has the
values that printing and reading makes of the original ones; the threshold and the distance are restored. -/
theorem C38_reload (env : Env α) (hio : IOok env.io P rt rt6) (cnt L : Nat) (hfit : SizeOk cnt L) (s : GSet α)
    (hs : Kept env.io P cnt L s) (t : GSet α) (hc : t.ds.itemCount = cnt) (hl : t.ds.itemLength = L) :
    ∃ text n t' gs gs' st, s.saveGroups env true false = .ok text ∧ t.loadGroups env (some text) = (.ok n, t') ∧
      t'.ds = t.ds ∧ s.threshold = some st ∧ t'.threshold = some (rt6 st) ∧
      s.groups = some gs ∧ t'.groups = some gs' ∧ gs'.distanceName = gs.distanceName ∧
      n = (gs.locals.map fun | none => 0 | some ls => len ls.groups).sum ∧
      (∀ l, (∃ ls, GroupsOf s l ls) ↔ ∃ ls', GroupsOf t' l ls') ∧
      ∀ l ls ls', GroupsOf s l ls → GroupsOf t' l ls' → ls'.groups.length = ls.groups.length ∧
        ∀ (k : Nat) (h : k < ls.groups.length) (h' : k < ls'.groups.length),
          CopyOf rt l s.ds ls.memberMap ls.groups[k] t.ds ls'.memberMap ls'.groups[k] := by
  have hprod : (cnt : Int) * (L : Int) ≤ 2147483647 := by exact_mod_cast hfit.prod
  have h1 := hfit.count
  have h2 := hfit.length
  obtain ⟨b1, b2, gs, CC, dn, st, b3, b4, b5, b6, b7⟩ := kept_inv hio hfit hs
  obtain ⟨n, lc, d1, d2, d3⟩ := load_spec hio (t := t) b7 (by rw [b1, hc]) (by rw [b2, hl]) hl
      (by omega) (by omega) (by rw [hc, hl]; exact hprod) (by omega) b6 b5
  have hlen : gs.locals.length = lc.length := by
    have e1 := b7.size
    have e2 := d2.size
    simp only [len] at e1 e2
    omega
  have hentry : ∀ l ls, vget gs.locals l = .ok (some ls) → 2 ≤ l ∧ l ≤ L := by
    intro l ls e
    obtain ⟨i0, i1⟩ := vget_lt e
    rw [b7.size] at i1
    refine ⟨?_, by omega⟩
    by_contra hlt
    rw [b7.short l i0 (by omega) (by omega)] at e
    simp at e
  have hentry' : ∀ l ls, vget lc l = .ok (some ls) → 2 ≤ l ∧ l ≤ L := by
    intro l ls e
    obtain ⟨i0, i1⟩ := vget_lt e
    rw [d2.size] at i1
    refine ⟨?_, by omega⟩
    by_contra hlt
    rw [d2.short l i0 (by omega) (by omega)] at e
    simp at e
  have hsum : (lc.map entryGroups) = gs.locals.map entryGroups := by
    refine List.ext_getElem (by simp [hlen]) ?_
    intro i i1 i2
    simp only [List.length_map] at i1 i2
    simp only [List.getElem_map]
    have e1 := vget_nat i1
    have e2 := vget_nat i2
    have hsz := d2.size
    simp only [len] at hsz
    by_cases hi : (i : Int) < 2
    · rw [d2.short i (by omega) hi (by omega), Res.ok.injEq] at e1
      rw [b7.short i (by omega) hi (by omega), Res.ok.injEq] at e2
      rw [← e1, ← e2]
    · obtain ⟨ls, a1, a2⟩ := b7.at_ i (by omega) (by omega)
      obtain ⟨ls', a3, a4⟩ := d2.at_ i (by omega) (by omega)
      rw [a3, Res.ok.injEq] at e1
      rw [a1, Res.ok.injEq] at e2
      rw [← e1, ← e2]
      simp only [entryGroups]
      rw [a2.space.card, a4.space.card]
      simp
  refine ⟨_, n, _, gs, _, st, save_spec b3 b4 b2 b7, d1, rfl, b4, rfl, b3, rfl, rfl, ?_, ?_, ?_⟩
  · rw [d3, hsum]
    rfl
  · intro l
    constructor
    · rintro ⟨ls, gs0, e1, e2⟩
      rw [b3, Option.some.injEq] at e1
      subst e1
      obtain ⟨k1, k2⟩ := hentry l ls e2
      obtain ⟨ls', a3, _⟩ := d2.at_ l k1 k2
      exact ⟨ls', _, rfl, a3⟩
    · rintro ⟨ls', gs0, e1, e2⟩
      simp only [Option.some.injEq] at e1
      subst e1
      obtain ⟨k1, k2⟩ := hentry' l ls' e2
      obtain ⟨ls, a3, _⟩ := b7.at_ l k1 k2
      exact ⟨ls, gs, b3, a3⟩
  · rintro l ls ls' ⟨gs0, e1, e2⟩ ⟨gs1, e3, e4⟩
    rw [b3, Option.some.injEq] at e1
    subst e1
    simp only [Option.some.injEq] at e3
    subst e3
    obtain ⟨k1, k2⟩ := hentry l ls e2
    obtain ⟨lsa, a1, a2⟩ := b7.at_ l k1 k2
    obtain ⟨lsb, a3, a4⟩ := d2.at_ l k1 k2
    rw [e2] at a1
    simp only [Res.ok.injEq, Option.some.injEq] at a1
    subst a1
    simp only at e4
    rw [e4] at a3
    simp only [Res.ok.injEq, Option.some.injEq] at a3
    subst a3
    have hc1 := a2.space.card
    have hc2 := a4.space.card
    simp only [List.length_map] at hc1 hc2
    refine ⟨by omega, ?_⟩
    intro k hk hk'
    have hkC : k < (CC l).length := by omega
    obtain ⟨c, c1, c2⟩ := a2.cent k hk hkC
    have c3 := a4.cent k hk' hkC
    have i1 := a2.space.inv k hk (by simpa using hkC)
    have i2 := a4.space.inv k hk' (by simpa using hkC)
    have m1 := getMembers_spec (by omega) a2.space.mapLen i1
    have m2 := getMembers_spec (by omega) a4.space.mapLen i2
    simp only [List.getElem_map] at m1 m2
    have n1 := i1.count
    have n2 := i2.count
    simp only [List.getElem_map] at n1 n2
    refine ⟨⟨c, { vals := (CC l)[k].1.map rt, cache := none }, c1, ?_, ?_⟩, ⟨(CC l)[k].2, m1, m2, n1⟩, ?_⟩
    · rw [c3]
      rfl
    · rw [c2]
    · rw [n1, n2]
      simp

/-! ## Rejected files -/

theorem throws_loadGroup {Q : Exc → Prop} (g : Group α) (mm : List Membership) (s : Stream) :
    Throws Q (g.loadGroup io mm s) := by
  unfold Group.loadGroup
  simp only
  split
  · exact Throws.ub _
  · refine Throws.bind (Throws.forInt ?_ _ _ _) fun st _ => Throws.ok _
    intro i st
    split
    · refine Throws.bind ?_ fun _ _ => Throws.ok _
      unfold Group.addMember
      exact (throws_vset _ _ _).bind fun _ _ => Throws.ok _
    · exact Throws.ub _

theorem throws_localLoad {Q : Exc → Prop} (ls : LocalSpace α) (s : Stream) : Throws Q (ls.loadGroups io s) := by
  unfold LocalSpace.loadGroups
  simp only
  split
  · exact Throws.ub _
  · refine Throws.bind (Throws.forInt ?_ _ _ _) fun st _ => Throws.ok _
    intro i st
    exact (throws_loadGroup _ _ _).bind fun _ _ => Throws.ok _

/-- C39, the part that holds, for every file and every state: whenever loading throws, either nothing at all has
changed, or the file named an unknown distance, or contained a length longer than the series
(`std::length_error`). In all cases the data are untouched. -/
theorem C39_rejected_partial (env : Env α) (file : Option Text) (s s' : GSet α) (e : Exc)
    (h : s.loadGroups env file = (.throw e, s')) :
    s'.ds = s.ds ∧ (s' = s ∨ (∃ name, e = .onex ("Cannot find distance with name: " ++ name)) ∨ e = .lengthError) := by
  unfold GSet.loadGroups at h
  split at h
  · simp only [Prod.mk.injEq] at h
    exact ⟨by rw [← h.2], Or.inl h.2.symm⟩
  · simp only at h
    split at h
    · simp at h
    split at h
    · simp only [Prod.mk.injEq] at h
      exact ⟨by rw [← h.2], Or.inl h.2.symm⟩
    split at h
    · simp at h
    split at h
    · simp only [Prod.mk.injEq] at h
      exact ⟨by rw [← h.2], Or.inl h.2.symm⟩
    split at h
    · simp at h
    split at h
    · simp only [Prod.mk.injEq] at h
      exact ⟨by rw [← h.2], Or.inl h.2.symm⟩
    simp only [Prod.mk.injEq] at h
    obtain ⟨h1, h2⟩ := h
    refine ⟨by rw [← h2]; rfl, Or.inr ?_⟩
    unfold GlobalSpace.loadGroups at h1
    simp only at h1
    split at h1
    · rename_i e' hd
      simp only [Res.throw.injEq] at h1
      subst h1
      refine Or.inl ?_
      unfold getDistance at hd
      split at hd
      · simp at hd
      · split at hd
        · simp at hd
        · simp only [Res.throw.injEq] at hd
          exact ⟨_, hd.symm⟩
    · simp at h1
    · right
      split at h1
      · simp only [Res.throw.injEq] at h1
        exact h1.symm
      · split at h1
        · split at h1
          · simp at h1
          · rename_i e' hrun
            simp only [Res.throw.injEq] at h1
            subst h1
            refine Throws.forInt (Q := fun e => e = .lengthError) ?_ _ _ _ _ hrun
            intro i st
            refine Throws.bind ?_ fun ls _ => (throws_localLoad _ _).bind fun _ _ =>
              (throws_vset _ _ _).bind fun _ _ => Throws.ok _
            unfold LocalSpace.new
            simp only
            split
            · intro e he
              simp only [Res.throw.injEq] at he
              exact he.symm
            · exact Throws.ok _
          · simp at h1
        · simp at h1

/-- C39: files with another version, or for another shape of dataset, are rejected with an `OnexException` and
change nothing. -/
theorem C39_other_shape_partial (env : Env α) (hio : IOok env.io P rt rt6) (s : GSet α) (version cnt len : Int)
    (st : α) (hst : P st) (rest : Text) (hv : inIntRange version = true) (hc : inIntRange cnt = true)
    (hl : inIntRange len = true) (h : version ≠ 1 ∨ cnt ≠ s.ds.itemCount ∨ len ≠ s.ds.itemLength) :
    ∃ msg, s.loadGroups env (some (showInt version ++ ' ' :: (env.io.show6 st ++ ' ' :: (showInt cnt ++ ' ' ::
      (showInt len ++ '\n' :: rest))))) = (.throw (.onex msg), s) := by
  have h0 := At.start (showInt version ++ ' ' :: (env.io.show6 st ++ ' ' :: (showInt cnt ++ ' ' ::
      (showInt len ++ '\n' :: rest))))
  obtain ⟨s1, e1, h1⟩ := readInt_show hv rfl h0
  obtain ⟨s2, e2, h2⟩ := readData_show (hio.word6 st hst) (hio.read6 st hst) h1
  obtain ⟨s3, e3, h3⟩ := readInt_show hc rfl h2
  obtain ⟨s4, e4, h4⟩ := readInt_show hl rfl h3
  unfold GSet.loadGroups
  simp only [e1, e2, e3, e4]
  by_cases c1 : version = 1
  · by_cases c2 : cnt = s.ds.itemCount
    · have c3 : len ≠ s.ds.itemLength := by
        rcases h with h | h | h
        · exact absurd c1 h
        · exact absurd c2 h
        · exact h
      rw [if_neg (by simp [c1]), if_neg (by simp [c2]), if_pos c3]
      exact ⟨_, rfl⟩
    · rw [if_neg (by simp [c1]), if_pos c2]
      exact ⟨_, rfl⟩
  · rw [if_pos c1]
    exact ⟨_, rfl⟩

/-- C39 is false of the code: a file that fits the dataset but names an unknown distance is rejected with an
exception after the groups of the dataset have been thrown away: the dataset counts as grouped and
has no groups of any length. -/
theorem C39_counterexample (env : Env α) (hio : IOok env.io P rt rt6) (s : GSet α) (st : α) (hst : P st)
    (hc : inIntRange s.ds.itemCount = true) (hl : inIntRange s.ds.itemLength = true)
    (name : String) (hname : name ≠ "euclidean" ∧ name ≠ "euclidean_dtw") (hne : name.toList ≠ [])
    (hw : ∀ x ∈ name.toList, isSpace x = false) (rest : Text) :
    ∃ msg s', s.loadGroups env (some (showInt 1 ++ ' ' :: (env.io.show6 st ++ ' ' :: (showInt s.ds.itemCount ++ ' ' ::
      (showInt s.ds.itemLength ++ '\n' :: (showInt 2 ++ ' ' :: (showInt 4 ++ '\n' :: (name.toList ++ '\n' :: rest)))))))) =
        (.throw (.onex msg), s') ∧ s'.isGrouped = true ∧ ∀ l ls, ¬ GroupsOf s' l ls := by
  have h0 := At.start (showInt 1 ++ ' ' :: (env.io.show6 st ++ ' ' :: (showInt s.ds.itemCount ++ ' ' ::
      (showInt s.ds.itemLength ++ '\n' :: (showInt 2 ++ ' ' :: (showInt 4 ++ '\n' :: (name.toList ++ '\n' :: rest)))))))
  obtain ⟨s1, e1, h1⟩ := readInt_show (by decide) rfl h0
  obtain ⟨s2, e2, h2⟩ := readData_show (hio.word6 st hst) (hio.read6 st hst) h1
  obtain ⟨s3, e3, h3⟩ := readInt_show hc rfl h2
  obtain ⟨s4, e4, h4⟩ := readInt_show hl rfl h3
  obtain ⟨s5, e5, h5⟩ := readInt_show (by decide) rfl h4
  obtain ⟨s6, e6, h6⟩ := readInt_show (by decide) rfl h5
  obtain ⟨s7, e7, _⟩ := readName_word hne hw rfl h6
  have hg : (GlobalSpace.fresh : GlobalSpace α).loadGroups env.io s.ds s4 =
      (.throw (.onex ("Cannot find distance with name: " ++ name)), { locals := [], distanceName := name }) := by
    unfold GlobalSpace.loadGroups
    simp only [e5, e6, e7, String.ofList_toList, getDistance, if_neg hname.1, if_neg hname.2]
  refine ⟨"Cannot find distance with name: " ++ name, { s with groups := some { locals := [], distanceName := name }, threshold := some (rt6 st) }, ?_, rfl, ?_⟩
  · unfold GSet.loadGroups
    simp only [e1, e2, e3, e4, GSet.reset, ne_eq, not_true_eq_false, if_false, hg]
  · rintro l ls ⟨gs, g1, g2⟩
    simp only [Option.some.injEq] at g1
    subst g1
    obtain ⟨i0, i1⟩ := vget_lt g2
    simp only [len, List.length_nil] at i1
    omega

/-- C39 for grouping, where it holds, in every state and for every number type: a grouping request on a dataset without data is
rejected and changes nothing, and any other request that is rejected keeps the data. -/
theorem C39_grouping_partial (env : Env α) (s : GSet α) (name : String) (th : α) :
    (s.ds.data = none → ∃ msg, s.groupAllLengths env name th = (.throw (.onex msg), s)) ∧
    ∀ e s', s.groupAllLengths env name th = (.throw e, s') → s'.ds = s.ds ∧ s'.threshold = s.threshold := by
  constructor
  · intro h
    refine ⟨"No data to group", ?_⟩
    unfold GSet.groupAllLengths Dataset.isLoaded
    rw [h]
    rfl
  · intro e s' h
    unfold GSet.groupAllLengths at h
    split at h
    · simp only [Prod.mk.injEq] at h
      rw [← h.2]
      exact ⟨rfl, rfl⟩
    · simp only at h
      split at h
      · simp at h
      · simp only [Prod.mk.injEq] at h
        rw [← h.2]
        exact ⟨rfl, rfl⟩

/-- Both parts apply: a dataset without data that nevertheless carries groups, and a loaded one asked for an unknown
distance. -/
example (env : Env α) (gs : GlobalSpace α) (v : α) :
    (∃ msg, (⟨Dataset.empty, some gs, none⟩ : GSet α).groupAllLengths env "euclidean" v =
      (.throw (.onex msg), ⟨Dataset.empty, some gs, none⟩)) ∧
    ∃ e s', (⟨{ (Dataset.empty : Dataset α) with data := some [v, v], itemCount := 1, itemLength := 2 }, some gs, none⟩ :
      GSet α).groupAllLengths env "manhattan" v = (.throw e, s') ∧ s'.ds.data = some [v, v] :=
  ⟨(C39_grouping_partial env _ _ _).1 rfl, _, _, rfl, rfl⟩

/-- C39 is false of the code for grouping requests, too: with an unknown distance they throw after the groups
have been thrown away. -/
theorem C39_grouping_counterexample (env : Env α) (s : GSet α) (hload : s.ds.isLoaded = true) (name : String)
    (hname : name ≠ "euclidean" ∧ name ≠ "euclidean_dtw") (th : α) :
    ∃ msg s', s.groupAllLengths env name th = (.throw (.onex msg), s') ∧ s'.isGrouped = true ∧
      ∀ l ls, ¬ GroupsOf s' l ls := by
  have hg : (GlobalSpace.fresh : GlobalSpace α).group env.ratio s.ds name th env.doLog =
      (.throw (.onex ("Cannot find distance with name: " ++ name)), { locals := [], distanceName := name }) := by
    unfold GlobalSpace.group getDistance
    rw [if_neg hname.1, if_neg hname.2]
  refine ⟨"Cannot find distance with name: " ++ name,
    { s with groups := some { locals := [], distanceName := name } }, ?_, rfl, ?_⟩
  · unfold GSet.groupAllLengths
    rw [if_neg (by simp [hload])]
    simp only [GSet.reset]
    rw [hg]
  · rintro l ls ⟨gs, g1, g2⟩
    simp only [Option.some.injEq] at g1
    subst g1
    obtain ⟨i0, i1⟩ := vget_lt g2
    simp only [len, List.length_nil] at i1
    omega

end any

/-! ## A case -/

/-- Formatting that prints the integer part only. -/
noncomputable def intIO : NumIO (F Rounding.exact) where
  show6 := fun | .fin x => showInt ⌊x⌋ | _ => showInt 0
  show16 := fun | .fin x => showInt ⌊x⌋ | _ => showInt 0
  read := fun t =>
    let p := splitInt t
    if p.2.1 = [] then none
    else some (F.fin (if p.1 then -(digitsVal p.2.1 : ℝ) else (digitsVal p.2.1 : ℝ)), p.2.2)

/-- What becomes of a number. -/
noncomputable def intPart : F Rounding.exact → F Rounding.exact
  | .fin x => F.fin (⌊x⌋ : ℝ)
  | v => v

theorem intIO_ok : IOok intIO (fun v => ∃ x, v = F.fin x) intPart intPart := by
  have hread : ∀ (x : ℝ) (t : Text), intIO.read (showInt ⌊x⌋ ++ ' ' :: t) = some (F.fin (⌊x⌋ : ℝ), ' ' :: t) := by
    intro x t
    simp only [intIO]
    rw [splitInt_show _ rfl]
    simp only
    rw [if_neg Nat.toDigits_ne_nil, digitsVal_eq, Nat.ofDigitChars_ten_toDigits]
    simp only [decide_eq_true_eq, Option.some.injEq, Prod.mk.injEq, and_true]
    congr 1
    rw [Nat.cast_natAbs]
    split
    · rename_i h
      rw [abs_of_neg h]
      simp
    · rename_i h
      rw [abs_of_nonneg (not_lt.mp h)]
  refine ⟨?_, ?_, ?_, ?_, ?_, ?_⟩
  · rintro v ⟨x, rfl⟩
    exact showInt_cons _
  · rintro v ⟨x, rfl⟩ t
    exact hread x t
  · rintro v ⟨x, rfl⟩
    exact ⟨_, rfl⟩
  · rintro v ⟨x, rfl⟩
    exact showInt_cons _
  · rintro v ⟨x, rfl⟩ t
    exact hread x t
  · rintro v ⟨x, rfl⟩
    exact ⟨_, rfl⟩

/-- A case for C38: two series of length 3 are grouped and saved; the file is loaded into an ungrouped
dataset that holds other values. -/
example (stod : Text → Stod (F Rounding.exact)) :
    let R : List (List ℝ) := [[0, 1, 2], [5, 5, 6]]
    let env : Env (F Rounding.exact) := ⟨F.fin 1, F.nan, intIO, stod, fun _ => false⟩
    let s : GSet (F Rounding.exact) := ⟨⟨some (R.map fins).flatten, 0, 3, 2, "", false⟩, none, none⟩
    let t : GSet (F Rounding.exact) := ⟨⟨some (List.replicate 6 (F.fin 9)), 7, 3, 2, "", false⟩, none, none⟩
    ∃ n s₁, s.groupAllLengths env "euclidean" (F.fin 1) = (.ok n, s₁) ∧
      ∃ text t', s₁.saveGroups env true false = .ok text ∧ t.loadGroups env (some text) = (.ok n, t') := by
  intro R env s t
  have hR : s.ds.Holds 3 (R.map fins) := by
    refine ⟨?_, rfl, rfl, [], by simp [s]⟩
    intro r hr
    simp only [R, List.map_cons, List.map_nil, List.mem_cons, List.not_mem_nil, or_false] at hr
    rcases hr with rfl | rfl <;> rfl
  obtain ⟨n, s₁, h⟩ := C36_completes_partial env 1 rfl s 3 R hR
    (ratioOk_of (by norm_num) (by norm_num)) "euclidean" (Or.inl rfl) (F.fin 1) (Or.inr fun _ => rfl)
  have hk : Kept env.io (fun v => ∃ x, v = F.fin x) 2 3 s₁ := by
    refine .grouped hR rfl ?_ ⟨1, rfl⟩ h
    intro r hr v hv
    obtain ⟨x, _, rfl⟩ := List.mem_map.mp hr
    obtain ⟨y, _, rfl⟩ := List.mem_map.mp hv
    exact ⟨y, rfl⟩
  obtain ⟨text, m, t', gs, gs', st, a1, a2, _, _, _, a3, _, _, a4, _⟩ :=
    C38_reload env intIO_ok 2 3 ⟨by norm_num, by norm_num, by norm_num⟩ s₁ hk t rfl rfl
  refine ⟨n, s₁, h, text, t', a1, ?_⟩
  obtain ⟨_, _, _, _, gs₁, b1, _, b2⟩ := C37_function_of_data env env rfl "euclidean" (F.fin 1) s s s₁ s₁ rfl n n h h
  rw [a3, Option.some.injEq] at b1
  subst b1
  rw [a2, a4, b2]
  rfl

/-- A case for the theorems about C39: a group file for three series offered to a dataset of two, and a file that
names the distance `foo`. -/
example (stod : Text → Stod (F Rounding.exact)) :
    let env : Env (F Rounding.exact) := ⟨F.fin 1, F.nan, intIO, stod, fun _ => false⟩
    let s : GSet (F Rounding.exact) := ⟨⟨some (List.replicate 6 (F.fin 9)), 7, 3, 2, "", false⟩, none, none⟩
    (∃ msg, s.loadGroups env (some "1 0 3 3\n2 4\neuclidean\n".toList) = (.throw (.onex msg), s)) ∧
    ∃ msg s', s.loadGroups env (some "1 0 2 3\n2 4\nfoo\n".toList) = (.throw (.onex msg), s') ∧ s'.isGrouped = true := by
  intro env s
  have h0 : env.io.show6 (F.fin 0) = ['0'] := by
    change showInt ⌊(0 : ℝ)⌋ = _
    rw [Int.floor_zero]
    decide
  constructor
  · have := C39_other_shape_partial env intIO_ok s 1 3 3 (F.fin 0) ⟨0, rfl⟩ "2 4\neuclidean\n".toList
      (by decide) (by decide) (by decide) (Or.inr (Or.inl (by decide)))
    rw [h0] at this
    exact this
  · obtain ⟨msg, s', a1, a2, _⟩ := C39_counterexample env intIO_ok s (F.fin 0) ⟨0, rfl⟩ (by decide) (by decide) "foo"
      (by decide) (by decide) (by decide) []
    have e : "1 0 2 3\n2 4\nfoo\n".toList = showInt 1 ++ ' ' :: (env.io.show6 (F.fin 0) ++ ' ' :: (showInt s.ds.itemCount ++
        ' ' :: (showInt s.ds.itemLength ++ '\n' :: (showInt 2 ++ ' ' :: (showInt 4 ++ '\n' :: ("foo".toList ++ ['\n']))))))
        := by
      rw [h0]
      decide
    rw [e]
    exact ⟨msg, s', a1, a2⟩

end Onex
