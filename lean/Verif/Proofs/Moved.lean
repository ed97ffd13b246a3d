import Verif.Proofs.AskedAll
import Verif.Props.GroupFiles
import Verif.Spec.Moved

/-!
# Two sets of groups with the same contents, searched side by side
-/

namespace Onex
open DataT Spec

variable {α : Type} [DataT α]

/-- Representatives with the same values and right caches. -/
def GV (ds ds' : Dataset α) (g g' : Group α) : Prop := ∃ x, g.centroid.srcVals ds = .ok x ∧
  g'.centroid.srcVals ds' = .ok x ∧ SRel x ⟨x, g.centroid.cache⟩ ⟨x, g'.centroid.cache⟩

/-- Related states of the scan over the representatives. -/
structure NV (ds ds' : Dataset α) (q : List α) (s s' : NearestState α) : Prop where
  groups : List.Forall₂ (GV ds ds') s.groups s'.groups
  query : SRel q s.query s'.query
  best : s.best = s'.best
  idx : s.bestIdx = s'.bestIdx

theorem GV.nearest {ds ds' : Dataset α} {q : List α} {d d' : Dist α} (hd : DRel d d') {gs gs' : List (Group α)}
    (hg : List.Forall₂ (GV ds ds') gs gs') {query query' : Series α} (hq : SRel q query query') (dropout : α) :
    RR (NV ds ds' q) (Onex.nearest ds d gs query dropout) (Onex.nearest ds' d' gs' query' dropout) := by
  unfold Onex.nearest
  rw [show len gs' = len gs by simp only [len, hg.length_eq]]
  refine RR.forInt (S := NV ds ds' q) ⟨hg, hq, rfl, rfl⟩ ?_
  rintro i ⟨gs, query, best, idx⟩ ⟨gs', query', best', idx'⟩ ⟨hg, hq, hb, hi⟩
  simp only at hg hq hb hi
  subst hb hi
  unfold nearestStep
  refine RR.bind (RR.vget hg i) ?_
  rintro g g' ⟨x, x1, x2, x3⟩
  unfold Group.distanceFromCentroid
  simp only [bind_assoc]
  rw [Cent.resolve_eq, Cent.resolve_eq, x1, x2]
  simp only [Res.bind_ok]
  refine RR.bind (hd x3 hq best) ?_
  rintro ⟨v, c1, q1⟩ ⟨v', c1', q1'⟩ ⟨e, h1, h2⟩
  simp only at e h1 h2
  subst e
  simp only [pure_bind]
  have hnew : GV ds ds' (recache g c1.cache) (recache g' c1'.cache) := by
    refine ⟨x, x1, x2, ?_⟩
    have e1 : c1 = { vals := x, cache := c1.cache } := by rw [← h1.vals]
    have e2 : c1' = { vals := x, cache := c1'.cache } := by rw [← h1.vals']
    rw [e1, e2] at h1
    exact h1
  refine RR.bind (RR.vset hg hnew i) fun gs1 gs1' hgs => ?_
  exact RR.ite Iff.rfl (.ok ⟨hgs, h2, rfl, rfl⟩) (.ok ⟨hgs, h2, rfl, rfl⟩)

/-- All lengths. -/
def TV (ds ds' : Dataset α) : List (Option (LocalSpace α)) → List (Option (LocalSpace α)) → Prop :=
  List.Forall₂ (Option.Rel fun ls ls' => List.Forall₂ (GV ds ds') ls.groups ls'.groups)

/-- Related states of the search. -/
structure QV (ds ds' : Dataset α) (q : List α) (s s' : SearchState α) : Prop where
  locals : TV ds ds' s.locals s'.locals
  query : SRel q s.query s'.query
  best : s.best = s'.best
  group : s.bestGroup = s'.bestGroup

theorem QV.searchStep {ds ds' : Dataset α} {q : List α} {d d' : Dist α} (hd : DRel d d') {s s' : SearchState α}
    (hs : QV ds ds' q s s') (i : Int) : RR (QV ds ds' q) (Onex.searchStep ds d s i) (Onex.searchStep ds' d' s' i) := by
  obtain ⟨hl, hq, hb, hg⟩ := hs
  unfold Onex.searchStep
  refine RR.bind (RR.vget hl i) fun o o' ho => ?_
  cases ho with
  | none => exact .ub _
  | some h =>
    rename_i ls ls'
    simp only [LocalSpace.getBestGroup, bind_assoc]
    rw [← hb]
    refine RR.bind (GV.nearest hd h hq s.best) fun t t' ht => ?_
    simp only [pure_bind]
    refine RR.bind (RR.vset hl (show Option.Rel _ (some { ls with groups := t.groups })
      (some { ls' with groups := t'.groups }) from .some ht.groups) i) fun l l' hl' => ?_
    exact RR.ite (by rw [ht.best]) (.ok ⟨hl', ht.query, ht.best, by simp only [ht.idx]⟩) (.ok ⟨hl', ht.query, rfl, hg⟩)

theorem QV.searchLoop {ds ds' : Dataset α} {q : List α} {d d' : Dist α} (hd : DRel d d') :
    ∀ (order : List Int) {s s' : SearchState α}, QV ds ds' q s s' →
      RR (QV ds ds' q) (Onex.searchLoop ds d order s) (Onex.searchLoop ds' d' order s')
  | [], _, _, hs => .ok hs
  | i :: order, _, _, hs => by
    unfold Onex.searchLoop
    exact RR.bind (QV.searchStep hd hs i) fun _ _ h => QV.searchLoop hd order h

/-- The scan over the same members in two datasets with the same rows. -/
theorem RR.scan2 {ds ds' : Dataset α} {L : Nat} {R : List (List α)} (hR : ds.Holds L R) (hR' : ds'.Holds L R)
    {q : List α} {d d' : Dist α} (hd : DRel d d') {l : Int} (hl : 1 ≤ l) {g g' : Group α}
    (hm : g.memberLength = l) (hm' : g'.memberLength = l) (hsc : g.subCount = ds.itemLength - l + 1)
    (hsc' : g'.subCount = ds'.itemLength - l + 1) (mm mm' : List Membership) :
    ∀ (ms : List Coord) (fuel fuel' : Nat) (cur cur' : Coord) (best : α) (bestM : Coord) {query query' : Series α},
      ms.length ≤ fuel → ms.length ≤ fuel' → (∀ c ∈ ms, IsSub ds.itemCount ds.itemLength l c) →
      Chain mm (ds.itemLength - l + 1) cur ms → Chain mm' (ds'.itemLength - l + 1) cur' ms → SRel q query query' →
      RR (fun p p' => p.1 = p'.1 ∧ p.2.1 = p'.2.1) (g.bestMatchLoop ds mm d fuel cur best bestM query)
        (g'.bestMatchLoop ds' mm' d' fuel' cur' best bestM query') := by
  intro ms
  induction ms with
  | nil =>
    intro fuel fuel' cur cur' best bestM query query' _ _ _ h1 h2 hq
    cases h1 with
    | nil _ h1 =>
      cases h2 with
      | nil _ h2 =>
        unfold Group.bestMatchLoop
        rw [if_pos h1, if_pos h2]
        exact .ok ⟨rfl, rfl⟩
  | cons c ms ih =>
    intro fuel fuel' cur cur' best bestM query query' f1 f2 hsub h1 h2 hq
    cases h1 with
    | cons _ e _ hc hget h1 =>
      cases h2 with
      | cons _ e' _ hc' hget' h2 =>
        cases fuel with
        | zero => simp at f1
        | succ fuel =>
          cases fuel' with
          | zero => simp at f2
          | succ fuel' =>
            have hs := hsub c (by simp)
            have hs' : IsSub ds'.itemCount ds'.itemLength l c := by
              rw [hR'.itemCount, hR'.itemLength, ← hR.itemCount, ← hR.itemLength]
              exact hs
            obtain ⟨r1, r2, _⟩ := resolve_subView hR hl hs
            obtain ⟨r1', _⟩ := resolve_subView hR' hl hs'
            unfold Group.bestMatchLoop
            rw [if_neg hc, if_neg hc]
            simp only
            rw [hm, hm', getTimeSeries_sub hl hs, getTimeSeries_sub hl hs', Res.bind_ok, Res.bind_ok, r1, r1',
              Res.bind_ok, Res.bind_ok, hsc, hsc']
            refine RR.bind (hd hq (srel_mk (by rw [r2]; omega)) best) ?_
            rintro ⟨w, q1, b1⟩ ⟨w', q1', b1'⟩ ⟨e2, k1, _⟩
            simp only at e2 k1
            subst e2
            simp only
            unfold slot at hget hget'
            rw [hget, hget']
            simp only [Res.bind_ok]
            have hms : ∀ c ∈ ms, IsSub ds.itemCount ds.itemLength l c := fun c hc => hsub c (by simp [hc])
            simp only [List.length_cons] at f1 f2
            split
            · exact ih _ _ _ _ _ _ (by omega) (by omega) hms h1 h2 k1
            · exact ih _ _ _ _ _ _ (by omega) (by omega) hms h1 h2 k1

/-- The same window of two sets. -/
def SameWin (v v' : View) : Prop := v.index = v'.index ∧ v.start = v'.start ∧ v.stop = v'.stop

omit [DataT α] in
theorem RR.window {ds ds' : Dataset α} {L : Nat} {R : List (List α)} (hR : ds.Holds L R) (hR' : ds'.Holds L R)
    (i a b : Int) : RR SameWin (ds.getTimeSeries i a b) (ds'.getTimeSeries i a b) := by
  unfold Dataset.getTimeSeries
  rw [hR.itemCount, hR'.itemCount, hR.itemLength, hR'.itemLength]
  exact RR.ite Iff.rfl (.throw _) (RR.ite Iff.rfl (.ok ⟨rfl, rfl, rfl⟩)
    (RR.ite Iff.rfl (.throw _) (.ok ⟨rfl, rfl, rfl⟩)))

/-- No envelope is cached. -/
def Clean (locals : List (Option (LocalSpace α))) : Prop := ∀ ls, some ls ∈ locals → ∀ g ∈ ls.groups, g.centroid.cache = none

theorem forall₂_of_get {β γ : Type} {S : β → γ → Prop} {l : List β} {l' : List γ} (hl : l.length = l'.length)
    (h : ∀ (i : Nat) (h1 : i < l.length) (h2 : i < l'.length), S l[i] l'[i]) : List.Forall₂ S l l' := by
  rw [List.forall₂_iff_get]
  exact ⟨hl, fun i h1 h2 => h i h1 h2⟩

omit [DataT α] in
theorem srcVals_of_resolve {ds : Dataset α} {c : Cent α} {s : Series α} (h : c.resolve ds = .ok s) :
    c.srcVals ds = .ok s.vals := by
  rw [Cent.resolve_eq] at h
  obtain ⟨x, h1, h2⟩ := Res.bind_eq_ok.mp h
  cases h2
  exact h1

/-- The same representatives, nothing cached. -/
theorem StoredAll.tv {P : α → Prop} {ds ds' : Dataset α} {L : Nat} {locals locals' : List (Option (LocalSpace α))}
    {CC CC' : Int → List (Content α)} (h : StoredAll P ds L locals CC) (h' : StoredAll P ds' L locals' CC')
    (hC : ∀ l, (CC' l).map Prod.fst = (CC l).map Prod.fst) (hc : Clean locals) (hc' : Clean locals') :
    TV ds ds' locals locals' := by
  have hsz := h.size
  have hsz' := h'.size
  simp only [len] at hsz hsz'
  refine forall₂_of_get (by omega) fun i h1 h2 => ?_
  by_cases hi : 2 ≤ i
  · obtain ⟨ls, e, hs⟩ := h.at_ i (by omega) (by omega)
    obtain ⟨ls', e', hs'⟩ := h'.at_ i (by omega) (by omega)
    have m1 := mem_of_vget e
    have m2 := mem_of_vget e'
    rw [vget_nat h1, Res.ok.injEq] at e
    rw [vget_nat h2, Res.ok.injEq] at e'
    rw [e, e']
    have hCi := hC i
    have hlC : (CC' i).length = (CC i).length := by simpa using congrArg List.length hCi
    have c1 := hs.space.card
    have c2 := hs'.space.card
    simp only [List.length_map] at c1 c2
    refine .some (forall₂_of_get (by omega) fun k k1 k2 => ?_)
    obtain ⟨c, r1, r2⟩ := hs.cent k k1 (by omega)
    obtain ⟨c', r1', r2'⟩ := hs'.cent k k2 (by omega)
    have hv : (CC' i)[k].1 = (CC i)[k].1 := by
      have e1 : ((CC' i).map Prod.fst)[k]? = ((CC i).map Prod.fst)[k]? := by rw [hCi]
      simpa [show k < (CC' i).length by omega, show k < (CC i).length by omega] using e1
    refine ⟨(CC i)[k].1, ?_, ?_, ?_⟩
    · rw [srcVals_of_resolve r1, r2]
    · rw [srcVals_of_resolve r1', r2', hv]
    · rw [hc ls m1 _ (List.getElem_mem k1), hc' ls' m2 _ (List.getElem_mem k2)]
      refine srel_mk ?_
      have := hs.clen _ (List.getElem_mem (by omega : k < (CC i).length))
      omega
  · have e := h.short i (by omega) (by omega) (by omega)
    have e' := h'.short i (by omega) (by omega) (by omega)
    rw [vget_nat h1, Res.ok.injEq] at e
    rw [vget_nat h2, Res.ok.injEq] at e'
    rw [e, e']
    exact .none

theorem vget_out {β : Type} {x : List β} {i : Int} (h : ¬ (0 ≤ i ∧ i < len x)) : vget x i = .ub "read out of bounds" := by
  unfold vget
  split
  · rw [List.getElem?_eq_none (by simp only [len] at h; omega)]
  · rfl

/-- The search up to the choice of the group. -/
theorem StoredAll.search {P : α → Prop} {ds ds' : Dataset α} {L : Nat} {gs gs' : GlobalSpace α}
    {CC CC' : Int → List (Content α)} (h : StoredAll P ds L gs.locals CC) (h' : StoredAll P ds' L gs'.locals CC')
    (hC : ∀ l, (CC' l).map Prod.fst = (CC l).map Prod.fst) (hc : Clean gs.locals) (hc' : Clean gs'.locals)
    {ratio : α} (hr : BandNN ratio) (junk junk' : α) {q : List α} (hq : 1 ≤ q.length) (order : List Int) :
    RR (fun s s' => s.bestGroup = s'.bestGroup ∧ SRel q s.query s'.query ∧ StoredAll P ds L s.locals CC ∧
        StoredAll P ds' L s'.locals CC')
      (searchLoop ds (cascadeDistance junk ratio) order
        { locals := gs.locals, query := Series.mk' q, best := DataT.inf, bestGroup := none })
      (searchLoop ds' (cascadeDistance junk' ratio) order
        { locals := gs'.locals, query := Series.mk' q, best := DataT.inf, bestGroup := none }) := by
  have key := QV.searchLoop (drel_cascade hr junk junk') order (s := {
      locals := gs.locals, query := Series.mk' q, best := DataT.inf, bestGroup := none }) (s' := {
      locals := gs'.locals, query := Series.mk' q, best := DataT.inf, bestGroup := none }) ⟨h.tv h' hC hc hc', srel_mk hq, rfl, rfl⟩
  generalize hx : searchLoop ds _ order _ = x at key ⊢
  generalize hx' : searchLoop ds' _ order _ = x' at key ⊢
  cases key with
  | ok k => exact .ok ⟨k.group, k.query, searchLoop_stored _ _ _ h hx, searchLoop_stored _ _ _ h' hx'⟩
  | throw e => exact .throw e
  | ub w => exact .ub w

/-- The whole search of two sets with the same rows and the same groups. -/
theorem StoredAll.match2 {P : α → Prop} {ds ds' : Dataset α} {L : Nat} {R : List (List α)} (hR : ds.Holds L R)
    (hR' : ds'.Holds L R) {gs gs' : GlobalSpace α} {CC : Int → List (Content α)} (h : StoredAll P ds L gs.locals CC)
    (h' : StoredAll P ds' L gs'.locals CC) (hc : Clean gs.locals) (hc' : Clean gs'.locals) {ratio : α}
    (hr : BandNN ratio) (junk junk' : α) (q : List α) :
    RR (fun p p' => p.1.dist = p'.1.dist ∧ SameWin p.1.ts p'.1.ts)
      (gs.getBestMatch junk ratio ds (Series.mk' q)) (gs'.getBestMatch junk' ratio ds' (Series.mk' q)) := by
  unfold GlobalSpace.getBestMatch
  by_cases hq : (Series.mk' q).length ≤ 1
  · rw [if_pos hq, if_pos hq]
    exact .throw _
  rw [if_neg hq, if_neg hq]
  simp only
  rw [h.size, h'.size]
  refine RR.bind_same fun order => ?_
  simp only [Series.length, Series.mk', len] at hq
  refine RR.bind (h.search h' (fun _ => rfl) hc hc' hr junk junk' (q := q) (by omega) order) ?_
  rintro s s' ⟨e, hs, k1, k2⟩
  rw [← e]
  cases s.bestGroup with
  | none => exact .ub _
  | some k =>
    obtain ⟨l, k⟩ := k
    simp only
    by_cases hl0 : 0 ≤ l ∧ l ≤ L
    · by_cases hl : 2 ≤ l
      · obtain ⟨ls, v1, st⟩ := k1.at_ l hl hl0.2
        obtain ⟨ls', v2, st'⟩ := k2.at_ l hl hl0.2
        rw [v1, v2]
        simp only [Res.bind_ok]
        have c1 := st.space.card
        have c2 := st'.space.card
        by_cases hk : 0 ≤ k ∧ k < len ls.groups
        · obtain ⟨k, rfl⟩ := Int.eq_ofNat_of_zero_le hk.1
          have hk1 : k < ls.groups.length := by have := hk.2; simp only [len] at this; omega
          have hk2 : k < ls'.groups.length := by omega
          rw [vget_nat hk1, vget_nat hk2]
          simp only [Res.bind_ok]
          have i1 := st.space.inv k hk1 (by omega)
          have i2 := st'.space.inv k hk2 (by omega)
          have f1 := members_le st.space.mapLen i1.subs i1.nodup
          have f2 := members_le st'.space.mapLen i2.subs i2.nodup
          unfold Group.getBestMatch
          simp only [bind_assoc]
          refine RR.bind (RR.scan2 hR hR' (drel_cascade hr junk junk') (by omega : 1 ≤ l) i1.memberLength i2.memberLength
            i1.subCount i2.subCount _ _ _ _ _ _ _ _ _ (by omega) (by omega) i1.subs i1.chain i2.chain hs) ?_
          rintro ⟨b, m, _⟩ ⟨b', m', _⟩ ⟨e1, e2⟩
          simp only at e1 e2
          subst e1 e2
          simp only
          rw [i1.memberLength, i2.memberLength]
          refine RR.bind (RR.window hR hR' _ _ _) fun v v' hv => ?_
          exact .ok ⟨rfl, hv⟩
        · have hlen : len ls'.groups = len ls.groups := by simp only [len, c1, c2]
          rw [vget_out hk, vget_out (by rw [hlen]; exact hk)]
          exact .ub _
      · rw [k1.short l hl0.1 (by omega) hl0.2, k2.short l hl0.1 (by omega) hl0.2]
        exact .ub _
    · rw [vget_out (by rw [k1.size]; omega), vget_out (by rw [k2.size]; omega)]
      exact .ub _

/-! ## The states that carry the same groups -/

omit [DataT α] in
theorem StoredAll.entry {P : α → Prop} {ds : Dataset α} {L : Nat} {locals : List (Option (LocalSpace α))}
    {CC : Int → List (Content α)} (h : StoredAll P ds L locals CC) {l : Int} {ls : LocalSpace α}
    (hv : vget locals l = .ok (some ls)) : 2 ≤ l ∧ l ≤ L ∧ StoreOk P ds l ls (CC l) := by
  obtain ⟨i0, i1⟩ := vget_lt hv
  rw [h.size] at i1
  by_cases hl : 2 ≤ l
  · obtain ⟨ls', e, hs⟩ := h.at_ l hl (by omega)
    rw [hv] at e
    cases e
    exact ⟨hl, by omega, hs⟩
  · rw [h.short l i0 (by omega) (by omega)] at hv
    cases hv

theorem StoredAll.rel {P : α → Prop} {ds : Dataset α} {L : Nat} {locals : List (Option (LocalSpace α))}
    {CC : Int → List (Content α)} (h : StoredAll P ds L locals CC) (hc : Clean locals) : TRel ds locals locals := by
  refine forall₂_self fun o ho => ?_
  cases o with
  | none => exact .none
  | some ls =>
    obtain ⟨i, hi, e⟩ := List.getElem_of_mem ho
    obtain ⟨h2, _, hs⟩ := h.entry (l := (i : Int)) (ls := ls) (by rw [vget_nat hi, e])
    refine .some ⟨rfl, rfl, rfl, forall₂_self fun g hg => ?_⟩
    obtain ⟨k, hk, rfl⟩ := List.getElem_of_mem hg
    have c1 := hs.space.card
    simp only [List.length_map] at c1
    obtain ⟨c, r1, r2⟩ := hs.cent k hk (by omega)
    refine GFit.rel ⟨hc ls ho _ hg, fun x hx => ?_⟩
    rw [srcVals_of_resolve r1] at hx
    cases hx
    rw [r2, hs.clen _ (List.getElem_mem _)]
    omega

/-- The contents after an odd number of moves: members are listed in the opposite order. -/
def turned (b : Bool) (CC : Int → List (Content α)) (l : Int) : List (Content α) :=
  if b then (CC l).map fun x => (x.1, x.2.reverse) else CC l

/-- What is known of the states that carry the groups with contents `CC`. -/
structure Carry (P : α → Prop) (L : Nat) (R : List (List α)) (CC : Int → List (Content α)) (s : GSet α) : Prop where
  holds : s.ds.Holds L R
  groups : ∃ gs dn st, s.groups = some gs ∧ s.threshold = some st ∧ P st ∧ getDistance gs.distanceName = .ok dn ∧
    StoredAll P s.ds L gs.locals CC
  twin : ∃ s₀ gs₀, s₀.groups = some gs₀ ∧ s₀.ds = s.ds ∧ StoredAll P s.ds L gs₀.locals CC ∧ Clean gs₀.locals ∧ CRel s₀ s

theorem Carry.fresh {P : α → Prop} {L : Nat} {R : List (List α)} {CC : Int → List (Content α)} {s : GSet α}
    (hR : s.ds.Holds L R) {gs dn st} (h1 : s.groups = some gs) (h2 : s.threshold = some st) (h3 : P st)
    (h4 : getDistance gs.distanceName = .ok dn) (h5 : StoredAll P s.ds L gs.locals CC) (h6 : Clean gs.locals) :
    Carry P L R CC s := by
  refine ⟨hR, ⟨gs, dn, st, h1, h2, h3, h4, h5⟩, s, gs, h1, rfl, h5, h6, rfl, ?_⟩
  rw [h1]
  exact .some (h5.rel h6)

theorem grouped_clean {env : Env α} {name : String} {th : α} {s s' : GSet α} {n : Int} {L : Nat}
    {R : List (List α)} (hR : s.ds.Holds L R) (hL : 1 ≤ L) (h : s.groupAllLengths env name th = (.ok n, s'))
    {gs : GlobalSpace α} (hg : s'.groups = some gs) : Clean gs.locals := by
  obtain ⟨_, _, gs', dn, a3, _, _, a6⟩ := groupAllLengths_ok h
  rw [hg] at a3
  cases a3
  intro ls hls g hgm
  obtain ⟨i, hi, e⟩ := List.getElem_of_mem hls
  have := (a6.entry (l := (i : Int)) (ls := ls) (by rw [vget_nat hi, e])).2.2
  exact (groupsAt_gfit (holds_windows hR hL) this g hgm).1

omit [DataT α] in
theorem turned_fst (b : Bool) (CC : Int → List (Content α)) (l : Int) :
    (turned b CC l).map Prod.fst = (CC l).map Prod.fst := by
  unfold turned
  split
  · rw [List.map_map]
    rfl
  · rfl

omit [DataT α] in
theorem turned_turned (b : Bool) (CC : Int → List (Content α)) :
    (fun l => (turned b CC l).map fun x => (x.1.map id, x.2.reverse)) = turned (!b) CC := by
  funext l
  cases b
  · simp [turned]
  · simp only [turned, if_true, Bool.not_true, Bool.false_eq_true, if_false, List.map_map]
    rw [List.map_congr_left (g := id)]
    · simp
    · rintro ⟨x, y⟩ _
      simp

theorem carried_inv {io : NumIO α} {P : α → Prop} {rt6 : α → α} (hio : IOok io P id rt6) {L : Nat} (hL : 1 ≤ L)
    {R : List (List α)} (hfit : SizeOk R.length L) {s₁ : GSet α} {CC : Int → List (Content α)}
    (h1 : Carry P L R CC s₁) {b : Bool} {s : GSet α} (h : Carried io L R s₁ b s) : Carry P L R (turned b CC) s := by
  have hprod : (R.length : Int) * (L : Int) ≤ 2147483647 := by exact_mod_cast hfit.prod
  have k1 := hfit.count
  have k2 := hfit.length
  induction h with
  | made => exact h1
  | @matched b s env hs hb x ih =>
    obtain ⟨hR, ⟨gs, dn, st, a1, a2, a3, a4, a5⟩, s₀, gs₀, t1, t2, t3, t4, t5⟩ := ih
    have hw : Windows s₀.ds := by rw [t2]; exact holds_windows hR hL
    have key := (t5.match_ hw (env := env) (env' := env) rfl hb x).2
    rcases he : s.getBestMatch env (Series.mk' x) with ⟨r, s'⟩
    rw [he] at key
    simp only at key ⊢
    have hds : s'.ds = s.ds := by rw [key.ds, t2]
    refine ⟨by rw [hds]; exact hR, ?_, s₀, gs₀, t1, by rw [hds, t2], by rw [hds]; exact t3, t4, key⟩
    have hbad : (∀ c, r ≠ .ok c) → s' = s := by
      intro hne
      unfold GSet.getBestMatch at he
      rw [a1] at he
      simp only at he
      split at he
      · simp only [Prod.mk.injEq] at he
        exact absurd he.1.symm (hne _)
      · simp only [Prod.mk.injEq] at he
        exact he.2.symm
      · simp only [Prod.mk.injEq] at he
        exact he.2.symm
    cases r with
    | ok c =>
      obtain ⟨c1, c2, gs', c3, c4, c5⟩ := match_stored a1 a5 he
      exact ⟨gs', dn, st, c3, by rw [c2, a2], a3, by rw [c4]; exact a4, by rw [hds]; exact c5⟩
    | throw e =>
      rw [hbad (by simp)]
      exact ⟨gs, dn, st, a1, a2, a3, a4, a5⟩
    | ub e =>
      rw [hbad (by simp)]
      exact ⟨gs, dn, st, a1, a2, a3, a4, a5⟩
  | @moved b s env text t n t' hs he hsave ht hload ih =>
    subst he
    obtain ⟨hR, ⟨gs, dn, st, a1, a2, a3, a4, a5⟩, _⟩ := ih
    have hs' := save_spec (env := env) a1 a2 hR.itemLength a5
    rw [hsave, Res.ok.injEq] at hs'
    obtain ⟨n', lc, d1, d2, d3⟩ := load_spec hio (t := t) a5 (by rw [hR.itemCount, ht.itemCount])
      (by rw [hR.itemLength, ht.itemLength]) ht.itemLength (by rw [ht.itemCount]; omega) (by rw [ht.itemCount]; omega)
      (by rw [ht.itemCount, ht.itemLength]; exact hprod) (by omega) a4 a3
    rw [← hs', hload] at d1
    simp only [Prod.mk.injEq, Res.ok.injEq] at d1
    obtain ⟨_, rfl⟩ := d1
    refine Carry.fresh (gs := { locals := lc, distanceName := gs.distanceName }) ht rfl rfl (hio.keep6 _ a3) a4 ?_ ?_
    · rw [← turned_turned]
      refine ⟨d2.size, ?_, d2.short⟩
      intro l l1 l2
      obtain ⟨ls, e1, e2⟩ := a5.at_ l l1 l2
      obtain ⟨ls', e3, e4⟩ := d2.at_ l l1 l2
      exact ⟨ls', e3, e4.store hio e2⟩
    · intro ls hls g hg
      obtain ⟨i, hi, e⟩ := List.getElem_of_mem hls
      have hsz := d2.size
      simp only [len] at hsz
      simp only at hi e
      by_cases hi2 : 2 ≤ i
      · obtain ⟨ls', e3, e4⟩ := d2.at_ i (by omega) (by omega)
        rw [vget_nat hi, e] at e3
        cases e3
        obtain ⟨k, hk, rfl⟩ := List.getElem_of_mem hg
        have := e4.space.card
        simp only [List.length_map] at this
        rw [e4.cent k hk (by omega)]
      · have := d2.short i (by omega) (by omega) (by omega)
        rw [vget_nat hi, e] at this
        cases this

/-- A grouped dataset carries its groups. -/
theorem grouped_carry {P : α → Prop} {env : Env α} {name : String} {th : α} {s s' : GSet α} {n : Int} {L : Nat}
    {R : List (List α)} (hR : s.ds.Holds L R) (hL : 1 ≤ L) (hP : ∀ r ∈ R, ∀ v ∈ r, P v) (hth : P th)
    (h : s.groupAllLengths env name th = (.ok n, s')) : ∃ CC, Carry P L R CC s' := by
  obtain ⟨a1, a2, gs, CC, dn, a3, a4, a5⟩ := grouped_stored hR hP h
  exact ⟨CC, Carry.fresh (by rw [a1]; exact hR) a3 a2 hth a4 (by rw [a1]; exact a5) (grouped_clean hR hL h a3)⟩

end Onex
