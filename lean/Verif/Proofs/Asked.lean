import Verif.Proofs.Transfer
import Verif.Proofs.AnyGroup
import Verif.Spec.Made

/-!
# Two searches of the same groups with different envelope caches

The caches are the only thing a search changes. Here two sets of groups that differ in their caches only are
searched side by side.
-/

namespace Onex
open DataT Spec

section junk

/-- Numbers of type `α` and one more that stands for a place never written. -/
@[reducible] def optData (α : Type) [DataT α] : DataT (Option α) where
  ofInt z := some (ofInt z)
  inf := some inf
  ninf := some ninf
  eps := some eps
  add _ _ := none
  sub _ _ := none
  mul _ _ := none
  div _ _ := none
  sqrt _ := none
  abs _ := none
  lt x y := match x, y with
    | some x, some y => DataT.lt x y
    | _, _ => false
  le _ _ := false
  eq _ _ := false
  floorInt _ := none

variable {α : Type} [DataT α]

/-- A place with a value, or one never written. -/
def Slot (junk : α) (x : Option α) (y : α) : Prop := x = some y ∨ (x = none ∧ y = junk)

/-- The envelope does not depend on what the freshly allocated arrays held. -/
theorem generateKeoghLU_junk (t : List α) (ht : 1 ≤ t.length) (w : Nat) :
    ∃ lo up, ∀ junk, generateKeoghLU junk t (w : Int) = .ok (lo, up) := by
  let _ := optData α
  obtain ⟨olo, oup, h1, l1, l2, h2⟩ := generateKeoghLU_any (t.map some) none (by simpa using ht) w
  have hnone : ∀ {l : List (Option α)}, l.length = (t.map some).length → (∀ i, i < (t.map some).length →
      ∃ j, ∃ hj : j < (t.map some).length, i ≤ j + w ∧ j ≤ i + w ∧ l[i]? = some (t.map some)[j]) → none ∉ l := by
    intro l hl h hm
    obtain ⟨i, hi, e⟩ := List.getElem_of_mem hm
    obtain ⟨j, hj, _, _, e'⟩ := h i (by omega)
    rw [List.getElem?_eq_getElem hi, e] at e'
    simp at e'
  have n1 : none ∉ olo := hnone l1 (fun i hi => (h2 i hi).1)
  have n2 : none ∉ oup := hnone l2 (fun i hi => (h2 i hi).2)
  have strip : ∀ (junk : α) {o : List (Option α)} {l : List α},
      List.Forall₂ (Slot junk) o l → none ∉ o →
      l = o.filterMap id := by
    intro junk o l h
    induction h with
    | nil => intro _; rfl
    | cons h _ ih =>
      intro hn
      simp only [List.mem_cons, not_or] at hn
      rcases h with rfl | ⟨rfl, _⟩
      · simp [ih hn.2]
      · exact absurd rfl hn.1
  refine ⟨olo.filterMap id, oup.filterMap id, fun junk => ?_⟩
  have key : RR (RP (List.Forall₂ (Slot junk))
      (List.Forall₂ (Slot junk)))
      (generateKeoghLU none (t.map some) (w : Int)) (generateKeoghLU junk t (w : Int)) := by
    unfold generateKeoghLU
    simp only [len, List.length_map]
    refine RR.lemireOf (T := fun (x : Option α) y => x = some y) ?_ (S := Slot junk) (fun _ _ h => Or.inl h) ?_
      (forall₂_replicate (R := Slot junk) (Or.inr ⟨rfl, rfl⟩) _) (forall₂_replicate (R := Slot junk) (Or.inr ⟨rfl, rfl⟩) _) _ _
    · rintro _ a _ b rfl rfl
      rfl
    · rw [List.forall₂_map_left_iff]
      exact List.forall₂_same.mpr (fun _ _ => rfl)
  rw [h1] at key
  generalize generateKeoghLU junk t (w : Int) = res at key
  cases key with
  | ok h =>
    rename_i p
    obtain ⟨p1, p2⟩ := p
    have e1 : p1 = _ := strip junk h.1 n1
    have e2 : p2 = _ := strip junk h.2 n2
    rw [e1, e2]

end junk

variable {α : Type} [DataT α]

/-- The cached envelope, if any, is the one that would be computed. -/
def Cached (s : Series α) : Prop :=
  ∀ c, s.cache = some c → ∀ junk, generateKeoghLU junk s.vals c.band = .ok (c.lower, c.upper)

/-- Two series with the values `x` and right caches. -/
structure SRel (x : List α) (a b : Series α) : Prop where
  vals : a.vals = x
  vals' : b.vals = x
  left : Cached a
  right : Cached b
  pos : 1 ≤ x.length

theorem srel_mk {x : List α} (h1 : 1 ≤ x.length):
    SRel x (Series.mk' x) (Series.mk' x) :=
  ⟨rfl, rfl, (by intro c h; cases h), (by intro c h; cases h), h1⟩

theorem getKeogh_one (junk : α) {a : Series α} (ha : Cached a) (hpos : 1 ≤ a.vals.length) (w : Nat) :
    ∃ lo up a', (∀ j, generateKeoghLU j a.vals (w : Int) = .ok (lo, up)) ∧
      getKeogh junk a (w : Int) = .ok ((lo, up), a') ∧ a'.vals = a.vals ∧ Cached a' := by
  obtain ⟨lo, up, h⟩ := generateKeoghLU_junk a.vals hpos w
  have fresh : Cached { a with cache := some { band := (w : Int), lower := lo, upper := up } } := by
    intro c hc j
    cases hc
    exact h j
  refine ⟨lo, up, ?_⟩
  unfold getKeogh
  rcases hc : a.cache with _ | c
  · simp only [h, Res.bind_ok]
    exact ⟨_, fun _ => trivial, rfl, rfl, fresh⟩
  · simp only
    by_cases hb : c.band = (w : Int)
    · rw [if_pos hb]
      have e := ha c hc
      rw [hb] at e
      have e' := (e junk).symm.trans (h junk)
      simp only [Res.ok.injEq, Prod.mk.injEq] at e'
      rw [e'.1, e'.2]
      exact ⟨a, h, rfl, rfl, ha⟩
    · rw [if_neg hb]
      simp only [h, Res.bind_ok]
      exact ⟨_, fun _ => trivial, rfl, rfl, fresh⟩

theorem RR.getKeogh (junk junk' : α) {x : List α} {a b : Series α} (h : SRel x a b) (w : Nat) :
    RR (fun p p' => p.1 = p'.1 ∧ SRel x p.2 p'.2) (Onex.getKeogh junk a (w : Int))
      (Onex.getKeogh junk' b (w : Int)) := by
  obtain ⟨lo, up, a', e1, e2, e3, e4⟩ := getKeogh_one junk h.left (by rw [h.vals]; exact h.pos) w
  obtain ⟨lo', up', b', f1, f2, f3, f4⟩ := getKeogh_one junk' h.right (by rw [h.vals']; exact h.pos) w
  have e := e1 junk
  rw [h.vals, ← h.vals', f1 junk] at e
  simp only [Res.ok.injEq, Prod.mk.injEq] at e
  rw [e2, f2]
  exact .ok ⟨by rw [e.1, e.2], by rw [e3, h.vals], by rw [f3, h.vals'], e4, f4, h.pos⟩

theorem SRel.len1 {x : List α} {a b : Series α} (h : SRel x a b) : a.length = len x := by
  unfold Series.length
  rw [h.vals]

theorem SRel.len2 {x : List α} {a b : Series α} (h : SRel x a b) : b.length = len x := by
  unfold Series.length
  rw [h.vals']

theorem RR.keogh {ratio : α} (hr : BandNN ratio) (junk junk' : α) {x y : List α} {a a' b b' : Series α}
    (ha : SRel x a a') (hb : SRel y b b') (dropout : α) :
    RR (fun p p' => p.1 = p'.1 ∧ SRel x p.2 p'.2) (keoghLowerBound junk ratio a b dropout)
      (keoghLowerBound junk' ratio a' b' dropout) := by
  have e : max (len x) (len y) = ((max x.length y.length : Nat) : Int) := by
    simp only [len]; omega
  unfold keoghLowerBound
  simp only [ha.len1, ha.len2, hb.len1, hb.len2, e]
  cases hc : calculateWarpingBandSize ratio (max x.length y.length : Nat) with
  | throw e => exact .throw e
  | ub w => exact .ub w
  | ok r =>
  obtain ⟨r, rfl⟩ := Int.eq_ofNat_of_zero_le (hr _ _ (by have := ha.pos; omega) hc)
  simp only [Res.bind_ok]
  refine RR.bind (RR.getKeogh junk junk' ha r) ?_
  rintro ⟨⟨l, u⟩, a1⟩ ⟨⟨l', u'⟩, a1'⟩ ⟨e1, h1⟩
  simp only [Prod.mk.injEq] at e1
  obtain ⟨rfl, rfl⟩ := e1
  refine RR.bind (RR.getKeogh junk junk' h1 r) ?_
  rintro ⟨⟨l2, u2⟩, a2⟩ ⟨⟨l2', u2'⟩, a2'⟩ ⟨e2, h2⟩
  simp only [Prod.mk.injEq] at e2
  obtain ⟨rfl, rfl⟩ := e2
  simp only [h2.len1, h2.len2, hb.vals, hb.vals']
  exact RR.bind_same fun lb => .ok ⟨rfl, h2⟩

/-- Outcomes of a distance: the same number, and series with the values they had. -/
def RDist (x y : List α) (p p' : α × Series α × Series α) : Prop :=
  p.1 = p'.1 ∧ SRel x p.2.1 p'.2.1 ∧ SRel y p.2.2 p'.2.2

/-- Two distances that agree whatever the caches. -/
def DRel (d d' : Dist α) : Prop := ∀ ⦃x y a a' b b'⦄, SRel x a a' → SRel y b b' → ∀ dropout,
  RR (RDist x y) (d a b dropout) (d' a' b' dropout)

theorem drel_cascade {ratio : α} (hr : BandNN ratio) (junk junk' : α) :
    DRel (cascadeDistance junk ratio) (cascadeDistance junk' ratio) := by
  intro x y a a' b b' ha hb dropout
  have hcross : RR (RDist x y) (crossKeoghLowerBound junk ratio a b dropout)
      (crossKeoghLowerBound junk' ratio a' b' dropout) := by
    unfold crossKeoghLowerBound
    refine RR.bind (RR.keogh hr junk junk' ha hb dropout) ?_
    rintro ⟨v, a1⟩ ⟨v', a1'⟩ ⟨e1, h1⟩
    simp only at e1 h1
    subst e1
    refine RR.ite Iff.rfl (.ok ⟨rfl, h1, hb⟩) ?_
    refine RR.bind (RR.keogh hr junk junk' hb h1 dropout) ?_
    rintro ⟨w, b1⟩ ⟨w', b1'⟩ ⟨e2, h2⟩
    simp only at e2 h2
    subst e2
    exact .ok ⟨rfl, h1, h2⟩
  unfold cascadeDistance
  refine RR.bind hcross ?_
  rintro ⟨v, a1, b1⟩ ⟨v', a1', b1'⟩ ⟨e1, h1, h2⟩
  simp only at e1 h1 h2
  subst e1
  refine RR.ite Iff.rfl (.ok ⟨rfl, h1, h2⟩) ?_
  simp only [h1.vals, h2.vals, h1.vals', h2.vals']
  exact RR.bind_same fun d => .ok ⟨rfl, h1, h2⟩

/-! ## Groups -/

/-- The values of a representative. -/
def Cent.srcVals (ds : Dataset α) (c : Cent α) : Res (List α) :=
  match c.src with
  | .own vals => .ok vals
  | .view v => ds.resolve v

omit [DataT α] in
theorem Cent.resolve_eq (ds : Dataset α) (c : Cent α) :
    c.resolve ds = c.srcVals ds >>= fun x => .ok { vals := x, cache := c.cache } := by
  unfold Cent.resolve Cent.srcVals
  cases c.src <;> rfl

/-- The same group, with caches that are right. -/
structure GRel (ds : Dataset α) (g g' : Group α) : Prop where
  same : ∃ c, g' = recache g c
  fit : ∀ x, g.centroid.srcVals ds = .ok x →
    SRel x { vals := x, cache := g.centroid.cache } { vals := x, cache := g'.centroid.cache }

theorem RR.resolve {ds : Dataset α} {g g' : Group α} (h : GRel ds g g') :
    RR (fun c c' => ∃ x, g.centroid.srcVals ds = .ok x ∧ SRel x c c') (g.centroid.resolve ds)
      (g'.centroid.resolve ds) := by
  obtain ⟨⟨c, rfl⟩, hfit⟩ := h
  rw [Cent.resolve_eq, Cent.resolve_eq]
  have e : (recache g c).centroid.srcVals ds = g.centroid.srcVals ds := rfl
  rw [e]
  cases hx : g.centroid.srcVals ds with
  | ok x => exact .ok ⟨x, rfl, hfit x hx⟩
  | throw e => exact .throw e
  | ub w => exact .ub w

/-- Related states of the scan over the representatives. -/
structure NRel (ds : Dataset α) (q : List α) (s s' : NearestState α) : Prop where
  groups : List.Forall₂ (GRel ds) s.groups s'.groups
  query : SRel q s.query s'.query
  best : s.best = s'.best
  idx : s.bestIdx = s'.bestIdx

theorem RR.nearest {ds : Dataset α} {q : List α} {d d' : Dist α} (hd : DRel d d') {gs gs' : List (Group α)}
    (hg : List.Forall₂ (GRel ds) gs gs') {query query' : Series α} (hq : SRel q query query') (dropout : α) :
    RR (NRel ds q) (Onex.nearest ds d gs query dropout) (Onex.nearest ds d' gs' query' dropout) := by
  unfold Onex.nearest
  rw [show len gs' = len gs by simp only [len, hg.length_eq]]
  refine RR.forInt (S := NRel ds q) ⟨hg, hq, rfl, rfl⟩ ?_
  rintro i ⟨gs, query, best, idx⟩ ⟨gs', query', best', idx'⟩ ⟨hg, hq, hb, hi⟩
  simp only at hg hq hb hi
  subst hb hi
  unfold nearestStep
  refine RR.bind (RR.vget hg i) fun g g' hgg => ?_
  unfold Group.distanceFromCentroid
  simp only [bind_assoc]
  refine RR.bind (RR.resolve hgg) ?_
  rintro c c' ⟨x, hx, hc⟩
  refine RR.bind (hd hc hq best) ?_
  rintro ⟨v, c1, q1⟩ ⟨v', c1', q1'⟩ ⟨e, h1, h2⟩
  simp only at e h1 h2
  subst e
  simp only [pure_bind]
  have hnew : GRel ds (recache g c1.cache) (recache g' c1'.cache) := by
    obtain ⟨⟨k, rfl⟩, _⟩ := hgg
    refine ⟨⟨c1'.cache, rfl⟩, ?_⟩
    intro y hy
    have hy : g.centroid.srcVals ds = .ok y := hy
    rw [hx] at hy
    cases hy
    have e1 : c1 = { vals := x, cache := c1.cache } := by rw [← h1.vals]
    have e2 : c1' = { vals := x, cache := c1'.cache } := by rw [← h1.vals']
    rw [e1, e2] at h1
    exact h1
  refine RR.bind (RR.vset hg hnew i) fun gs1 gs1' hgs => ?_
  exact RR.ite Iff.rfl (.ok ⟨hgs, h2, rfl, rfl⟩) (.ok ⟨hgs, h2, rfl, rfl⟩)

/-- The same groups of one length. -/
structure LRel (ds : Dataset α) (ls ls' : LocalSpace α) : Prop where
  length : ls.length = ls'.length
  subCount : ls.subCount = ls'.subCount
  memberMap : ls.memberMap = ls'.memberMap
  groups : List.Forall₂ (GRel ds) ls.groups ls'.groups

/-- The same groups of all lengths. -/
def TRel (ds : Dataset α) : List (Option (LocalSpace α)) → List (Option (LocalSpace α)) → Prop :=
  List.Forall₂ (Option.Rel (LRel ds))

/-- Related states of the search. -/
structure QRel (ds : Dataset α) (q : List α) (s s' : SearchState α) : Prop where
  locals : TRel ds s.locals s'.locals
  query : SRel q s.query s'.query
  best : s.best = s'.best
  group : s.bestGroup = s'.bestGroup

theorem RR.searchStep {ds : Dataset α} {q : List α} {d d' : Dist α} (hd : DRel d d') {s s' : SearchState α}
    (hs : QRel ds q s s') (i : Int) : RR (QRel ds q) (Onex.searchStep ds d s i) (Onex.searchStep ds d' s' i) := by
  obtain ⟨hl, hq, hb, hg⟩ := hs
  unfold Onex.searchStep
  refine RR.bind (RR.vget hl i) fun o o' ho => ?_
  cases ho with
  | none => exact .ub _
  | some h =>
    rename_i ls ls'
    simp only [LocalSpace.getBestGroup, bind_assoc]
    rw [← hb]
    refine RR.bind (RR.nearest hd h.groups hq s.best) fun t t' ht => ?_
    simp only [pure_bind]
    have hnew : Option.Rel (LRel ds) (some { ls with groups := t.groups }) (some { ls' with groups := t'.groups }) :=
      .some ⟨h.length, h.subCount, h.memberMap, ht.groups⟩
    refine RR.bind (RR.vset hl hnew i) fun l l' hl' => ?_
    exact RR.ite (by rw [ht.best]) (.ok ⟨hl', ht.query, ht.best, by simp only [ht.idx]⟩) (.ok ⟨hl', ht.query, rfl, hg⟩)

theorem RR.searchLoop {ds : Dataset α} {q : List α} {d d' : Dist α} (hd : DRel d d') :
    ∀ (order : List Int) {s s' : SearchState α}, QRel ds q s s' →
      RR (QRel ds q) (Onex.searchLoop ds d order s) (Onex.searchLoop ds d' order s')
  | [], _, _, hs => .ok hs
  | i :: order, _, _, hs => by
    unfold Onex.searchLoop
    exact RR.bind (RR.searchStep hd hs i) fun _ _ h => RR.searchLoop hd order h

/-- The windows of the dataset have at least one value. -/
def Windows (ds : Dataset α) : Prop := ∀ i a b v x, ds.getTimeSeries i a b = .ok v → ds.resolve v = .ok x →
  1 ≤ x.length

theorem RR.bestMatchLoop {ds : Dataset α} {q : List α} {d d' : Dist α} (hd : DRel d d') {g g' : Group α}
    (hm : g.memberLength = g'.memberLength) (hsc : g.subCount = g'.subCount) (mm : List Membership)
    (hN : Windows ds) :
    ∀ (fuel : Nat) (cur : Coord) (best : α) (bestM : Coord) {query query' : Series α}, SRel q query query' →
      RR (fun p p' => p.1 = p'.1 ∧ p.2.1 = p'.2.1) (g.bestMatchLoop ds mm d fuel cur best bestM query)
        (g'.bestMatchLoop ds mm d' fuel cur best bestM query') := by
  intro fuel
  induction fuel with
  | zero =>
    intro cur best bestM query query' hq
    unfold Group.bestMatchLoop
    exact RR.ite Iff.rfl (.ok ⟨rfl, rfl⟩) (.ub _)
  | succ fuel ih =>
    intro cur best bestM query query' hq
    unfold Group.bestMatchLoop
    refine RR.ite Iff.rfl (.ok ⟨rfl, rfl⟩) ?_
    simp only
    rw [← hm, ← hsc]
    cases hv : ds.getTimeSeries cur.1 cur.2 (cur.2 + g.memberLength) with
    | throw e => exact .throw e
    | ub w => exact .ub w
    | ok v =>
      rw [Res.bind_ok, Res.bind_ok]
      cases hx : ds.resolve v with
      | throw e => exact .throw e
      | ub w => exact .ub w
      | ok x =>
        rw [Res.bind_ok, Res.bind_ok]
        have n1 := hN _ _ _ v x hv hx
        refine RR.bind (hd hq (srel_mk n1) best) ?_
        rintro ⟨w, q1, b1⟩ ⟨w', q1', b1'⟩ ⟨e, h1, _⟩
        simp only at e h1
        subst e
        simp only
        split
        · exact RR.bind_same fun m => ih _ _ _ h1
        · exact RR.bind_same fun m => ih _ _ _ h1

theorem RR.globalMatch {ds : Dataset α} {q : List α} {ratio : α} (hr : BandNN ratio) (junk junk' : α)
    {gs gs' : GlobalSpace α} (hl : TRel ds gs.locals gs'.locals) (hN : Windows ds)
    {query query' : Series α} (hq : SRel q query query') :
    RR (fun p p' => p.1 = p'.1 ∧ TRel ds p.2.locals p'.2.locals)
      (gs.getBestMatch junk ratio ds query) (gs'.getBestMatch junk' ratio ds query') := by
  unfold GlobalSpace.getBestMatch
  rw [hq.len1, hq.len2]
  refine RR.ite Iff.rfl (.throw _) ?_
  simp only
  rw [show len gs'.locals = len gs.locals by simp only [len, List.Forall₂.length_eq hl]]
  refine RR.bind_same fun order => ?_
  have hd := drel_cascade hr junk junk'
  refine RR.bind (RR.searchLoop hd order ⟨hl, hq, rfl, rfl⟩) fun s s' hs => ?_
  rw [← hs.group]
  cases s.bestGroup with
  | none => exact .ub _
  | some k =>
    refine RR.bind (RR.vget hs.locals k.1) fun o o' ho => ?_
    cases ho with
    | none => exact .ub _
    | some h =>
      refine RR.bind (RR.vget h.groups k.2) fun g g' hg => ?_
      obtain ⟨⟨c, rfl⟩, -⟩ := hg
      unfold Group.getBestMatch
      simp only [bind_assoc]
      rw [← h.memberMap]
      refine RR.bind (RR.bestMatchLoop (g := g) (g' := recache g c) hd rfl rfl _ hN _ _ _ _ hs.query) ?_
      rintro ⟨b, m, _⟩ ⟨b', m', _⟩ ⟨e1, e2⟩
      simp only at e1 e2
      subst e1 e2
      exact RR.bind_same fun v => .ok ⟨rfl, hs.locals⟩

/-! ## Where it starts: after a completed grouping no cache is filled -/

/-- The representative has no cache, and at least one value if it can be read. -/
def GFit (ds : Dataset α) (g : Group α) : Prop := g.centroid.cache = none ∧
  ∀ x, g.centroid.srcVals ds = .ok x → 1 ≤ x.length

theorem GFit.rel {ds : Dataset α} {g : Group α} (h : GFit ds g) : GRel ds g g := by
  refine ⟨⟨g.centroid.cache, rfl⟩, fun x hx => ?_⟩
  rw [h.1]
  exact srel_mk (h.2 x hx)

theorem fn_same {dn : DistName} {ratio : α} {a b a' b' : Series α} {d v : α}
    (h : dn.fn ratio a b d = .ok (v, a', b')) : a' = a ∧ b' = b := by
  cases dn <;>
  · simp only [DistName.fn] at h
    obtain ⟨w, _, h⟩ := Res.bind_eq_ok.mp h
    cases h
    exact ⟨rfl, rfl⟩

theorem mem_of_vset {β : Type} {l l' : List β} {i : Int} {x y : β} (h : vset l i x = .ok l') (hy : y ∈ l') :
    y ∈ l ∨ y = x := by
  rw [(vset_eq_ok.mp h).2] at hy
  exact List.mem_or_eq_of_mem_set hy

theorem mem_of_vget {β : Type} {l : List β} {i : Int} {x : β} (h : vget l i = .ok x) : x ∈ l :=
  List.mem_of_getElem? (vget_eq_ok.mp h).2

theorem nearest_gfit {ds : Dataset α} {dn : DistName} {ratio : α} {gs : List (Group α)}
    (hg : ∀ g ∈ gs, GFit ds g) {query : Series α} {dropout : α} {s : NearestState α}
    (h : nearest ds (dn.fn ratio) gs query dropout = .ok s) : ∀ g ∈ s.groups, GFit ds g := by
  unfold nearest at h
  refine forInt_okInv (fun _ s => ∀ g ∈ s.groups, GFit ds g) (by simp [len]) hg ?_ h
  intro j s s' _ _ hi e
  unfold nearestStep at e
  obtain ⟨g, hgj, e⟩ := Res.bind_eq_ok.mp e
  obtain ⟨⟨v, g', q⟩, h1, e⟩ := Res.bind_eq_ok.mp e
  obtain ⟨gs', h2, e⟩ := Res.bind_eq_ok.mp e
  have hg0 := hi g (mem_of_vget hgj)
  have hg' : GFit ds g' := by
    unfold Group.distanceFromCentroid at h1
    obtain ⟨c, c1, h1⟩ := Res.bind_eq_ok.mp h1
    obtain ⟨⟨w, c', q'⟩, c2, h1⟩ := Res.bind_eq_ok.mp h1
    cases h1
    obtain ⟨rfl, rfl⟩ := fn_same c2
    rw [Cent.resolve_eq] at c1
    obtain ⟨x, c3, c1⟩ := Res.bind_eq_ok.mp c1
    cases c1
    exact ⟨hg0.1, hg0.2⟩
  have : s'.groups = gs' := by
    split at e <;> cases e <;> rfl
  rw [this]
  intro y hy
  rcases mem_of_vset h2 hy with h | rfl
  · exact hi y h
  · exact hg'

theorem placeOne_gfit {ds : Dataset α} (hN : Windows ds) {dn : DistName} {ratio th : α} {idx start : Int}
    {ls ls' : LocalSpace α} (hg : ∀ g ∈ ls.groups, GFit ds g)
    (h : placeOne ds (dn.fn ratio) th idx start ls = .ok ls') : ∀ g ∈ ls'.groups, GFit ds g := by
  unfold placeOne at h
  obtain ⟨v, _, h⟩ := Res.bind_eq_ok.mp h
  obtain ⟨vals, _, h⟩ := Res.bind_eq_ok.mp h
  obtain ⟨s, h1, h⟩ := Res.bind_eq_ok.mp h
  have hs := nearest_gfit hg h1
  have put : ∀ {gs : List (Group α)} {k : Int}, (∀ g ∈ gs, GFit ds g) → (do
      let g ← vget gs k
      let (g, mm) ← g.addMember ls.memberMap idx start
      let groups ← vset gs k g
      return { ls with groups := groups, memberMap := mm }) = .ok ls' → ∀ g ∈ ls'.groups, GFit ds g := by
    intro gs k hgs h
    obtain ⟨g, h3, h⟩ := Res.bind_eq_ok.mp h
    obtain ⟨⟨g', mm⟩, h4, h⟩ := Res.bind_eq_ok.mp h
    obtain ⟨gs', h5, h⟩ := Res.bind_eq_ok.mp h
    cases h
    intro y hy
    rcases mem_of_vset h5 hy with h | rfl
    · exact hgs y h
    · unfold Group.addMember at h4
      obtain ⟨mm', _, h4⟩ := Res.bind_eq_ok.mp h4
      cases h4
      exact hgs g (mem_of_vget h3)
  simp only at h
  split at h
  · obtain ⟨g, h3, h⟩ := Res.bind_eq_ok.mp h
    rw [Res.pure_eq, Res.bind_ok] at h
    refine put ?_ h
    intro y hy
    rcases List.mem_append.mp hy with hy | hy
    · exact hs y hy
    · rw [List.mem_singleton] at hy
      subst hy
      unfold Group.setCentroid at h3
      obtain ⟨v, h4, h3⟩ := Res.bind_eq_ok.mp h3
      cases h3
      exact ⟨rfl, fun x hx => hN _ _ _ v x h4 hx⟩
  · rw [Res.pure_eq, Res.bind_ok] at h
    split at h
    · cases h
    · exact put hs h

theorem groupsAt_gfit {ds : Dataset α} (hN : Windows ds) {dn : DistName} {ratio th : α} {l : Int}
    {ls : LocalSpace α} (h : groupsAt ds (dn.fn ratio) th l = .ok ls) : ∀ g ∈ ls.groups, GFit ds g := by
  unfold groupsAt at h
  obtain ⟨ls0, h0, h⟩ := Res.bind_eq_ok.mp h
  have e0 : ∀ g ∈ ls0.groups, GFit ds g := by
    unfold LocalSpace.new at h0
    simp only at h0
    split at h0
    · cases h0
    · cases h0
      intro g hg
      cases hg
  unfold LocalSpace.generateGroups at h
  simp only at h
  rcases Int.le_total ls0.subCount 0 with hc | hc
  · rw [forInt_of_le hc] at h
    cases h
    exact e0
  refine forInt_okInv (fun _ (ls : LocalSpace α) => ∀ g ∈ ls.groups, GFit ds g) hc e0 ?_ h
  intro j s s' _ _ hi e
  rcases Int.le_total ds.itemCount 0 with hc | hc
  · rw [forInt_of_le hc] at e
    cases e
    exact hi
  refine forInt_okInv (fun _ (ls : LocalSpace α) => ∀ g ∈ ls.groups, GFit ds g) hc hi ?_ e
  intro k t t' _ _ hi e
  obtain ⟨_, _, e⟩ := Res.bind_eq_ok.mp e
  exact placeOne_gfit hN hi e

theorem forall₂_self {β : Type} {R : β → β → Prop} : ∀ {l : List β}, (∀ x ∈ l, R x x) → List.Forall₂ R l l
  | [], _ => .nil
  | x :: _, h => .cons (h x (by simp)) (forall₂_self fun y hy => h y (by simp [hy]))

theorem grouped_rel {ds : Dataset α} (hN : Windows ds) {dn : DistName} {ratio th : α}
    {locals : List (Option (LocalSpace α))} {n : Int} (h : GroupedBy ds (dn.fn ratio) th locals n) :
    TRel ds locals locals := by
  refine forall₂_self fun o ho => ?_
  cases o with
  | none => exact .none
  | some ls =>
    refine .some ⟨rfl, rfl, rfl, forall₂_self fun g hg => ?_⟩
    obtain ⟨i, hi, e⟩ := List.getElem_of_mem ho
    have := (h.entry (l := (i : Int)) (ls := ls) (by rw [vget_nat hi, e])).2.2
    exact (groupsAt_gfit hN this g hg).rel

omit [DataT α] in
theorem holds_windows {ds : Dataset α} {L : Nat} {R : List (List α)} (h : ds.Holds L R) (h1 : 1 ≤ L) :
    Windows ds := by
  intro i a b v x hv hx
  have hlen : x.length = (v.stop - v.start).toNat ∨ v.stop ≤ v.start := by
    unfold Dataset.resolve at hx
    split at hx
    · cases hx
    · split at hx
      · exact Or.inr ‹_›
      · obtain ⟨buf, _, hx⟩ := Res.bind_eq_ok.mp hx
        split at hx
        · rename_i hb
          cases hx
          left
          simp only [len] at hb
          simp only [List.length_take, List.length_drop]
          omega
        · cases hx
  have hi := h.itemLength
  unfold Dataset.getTimeSeries at hv
  split at hv
  · cases hv
  · split at hv
    · cases hv
      simp only at hlen
      omega
    · split at hv
      · cases hv
      · cases hv
        simp only at hlen
        omega

end Onex
