import Verif.Proofs.AnyDist
import Verif.Proofs.SearchAll
import Verif.Props.Grouping

/-!
# Grouping and searching data of any values

The same loops as in `GroupReal` and `SearchAll`, without anything known about the values: what remains is that
nothing is read that does not exist.
-/

namespace Onex
open DataT Spec

set_option linter.unusedSectionVars false

variable {α : Type} [DataT α]

/-- The values of a sub-series of a table of any values. -/
theorem resolve_any {ds : Dataset α} {L : Nat} {R : List (List α)} (h : ds.Holds L R) {l : Int}
    (hl : 1 ≤ l) {c : Coord} (hc : IsSub ds.itemCount ds.itemLength l c) :
    ds.resolve (subView ds l c) = .ok (subVals R l c) ∧ (subVals R l c).length = l.toNat := by
  obtain ⟨i, s⟩ := c
  obtain ⟨⟨a1, a2⟩, a3, a4⟩ := hc
  simp only at a1 a2 a3 a4
  obtain ⟨i, rfl⟩ := Int.eq_ofNat_of_zero_le a1
  obtain ⟨s, rfl⟩ := Int.eq_ofNat_of_zero_le a3
  obtain ⟨l, rfl⟩ := Int.eq_ofNat_of_zero_le (by omega : 0 ≤ l)
  rw [h.itemCount] at a2
  rw [h.itemLength] at a4
  have hi : i < R.length := by omega
  obtain ⟨v, h1, h2, h3⟩ := C17_window_values h i s (s + l) hi (by omega) (by omega)
  have hg := getTimeSeries_sub (ds := ds) hl (c := ((i : Int), (s : Int)))
    ⟨⟨a1, by rw [h.itemCount]; exact a2⟩, a3, by rw [h.itemLength]; exact a4⟩
  simp only at hg
  rw [show ((s : Int) + (l : Int)) = ((s + l : Nat) : Int) by push_cast; rfl, h1] at hg
  rw [Res.ok.injEq] at hg
  have hrow : (R[i]).length = L := h.rows _ (List.getElem_mem hi)
  have hsv : subVals R (l : Int) ((i : Int), (s : Int)) = (R[i].drop s).take l := by
    unfold subVals
    simp [List.getD_eq_getElem?_getD, hi]
  constructor
  · rw [← hg, h3, hsv]
    congr 2
    omega
  · rw [hsv]
    simp only [List.length_take, List.length_drop, hrow, Int.toNat_natCast]
    omega

/-- The representative of `g` can be read, as `n` values. -/
def CentFit (ds : Dataset α) (n : Nat) (g : Group α) : Prop := ∃ s, g.centroid.resolve ds = .ok s ∧ Whole s n

theorem CentFit.recache {ds : Dataset α} {n : Nat} {g : Group α} {c c' : Series α}
    (h : g.centroid.resolve ds = .ok c) (hv : c'.vals = c.vals) (hw : Whole c' n) :
    CentFit ds n (recache g c'.cache) := by
  refine ⟨c', ?_, hw⟩
  unfold Cent.resolve at h ⊢
  unfold Onex.recache
  simp only at h ⊢
  cases hs : g.centroid.src with
  | own vals =>
    rw [hs] at h
    simp only [Res.ok.injEq] at h ⊢
    subst h
    simp only at hv
    rw [← hv]
  | view v =>
    rw [hs] at h
    simp only at h ⊢
    obtain ⟨x, hx, h⟩ := Res.bind_eq_ok.mp h
    simp only [Res.pure_eq, Res.ok.injEq] at h
    subst h
    simp only at hv
    rw [hx, Res.bind_ok, ← hv]
    rfl

/-- The scan for the nearest representative always ends; without a winner the bound is what it was. -/
theorem nearest_any {d : Dist α} {n m : Nat} (hd : DistDefined d n m) {ds : Dataset α} {gs : List (Group α)}
    (hg : ∀ g ∈ gs, CentFit ds n g) {query : Series α} (hq : Whole query m) (dropout : α) :
    (nearest ds d gs query dropout).Ensures fun s => (∀ g ∈ s.groups, CentFit ds n g) ∧ s.query.vals = query.vals ∧
      Whole s.query m ∧ (s.bestIdx = none → s.best = dropout) := by
  unfold nearest
  refine (forInt_keep (fun s : NearestState α => (s.groups.length = gs.length ∧ ∀ g ∈ s.groups, CentFit ds n g) ∧
    s.query.vals = query.vals ∧ Whole s.query m ∧ (s.bestIdx = none → s.best = dropout))
    ⟨⟨rfl, hg⟩, rfl, hq, fun _ => rfl⟩ ?_).mono (fun s h => ⟨h.1.2, h.2⟩)
  rintro i s hi1 hi2 ⟨⟨hl, hfit⟩, hqv, hqw, hb⟩
  obtain ⟨g, hget, hgi⟩ := vget_ok (l := s.groups) (i := i) hi1 (by simp only [len] at hi2 ⊢; omega)
  obtain ⟨c, hc1, hc2⟩ := hfit g (List.mem_of_getElem? hgi)
  obtain ⟨⟨x, c', q'⟩, e, v1, v2, w1, w2⟩ := hd c s.query s.best hc2 hqw
  simp only at v1 v2 w1 w2
  have hset := vset_ok (l := s.groups) (i := i) (recache g c'.cache) hi1 (by simp only [len] at hi2 ⊢; omega)
  unfold nearestStep
  rw [hget, Res.bind_ok]
  unfold Group.distanceFromCentroid
  rw [hc1, Res.bind_ok, e]
  simp only [Res.bind_ok, Res.pure_eq]
  change (vset s.groups i (recache g c'.cache) >>= _).Ensures _
  rw [hset, Res.bind_ok]
  have hfit' : ∀ g' ∈ s.groups.set i.toNat (recache g c'.cache), CentFit ds n g' := by
    intro g' hg'
    rcases List.mem_or_eq_of_mem_set hg' with h | h
    · exact hfit g' h
    · rw [h]
      exact CentFit.recache hc1 v1 w1
  split
  · exact ⟨_, rfl, ⟨by simpa using hl, hfit'⟩, by rw [v2, hqv], w2, by simp⟩
  · exact ⟨_, rfl, ⟨by simpa using hl, hfit'⟩, by rw [v2, hqv], w2, hb⟩

/-- State of the groups of one length while data of any values are grouped. -/
structure AnyInv (ds : Dataset α) (l : Int) (ls : LocalSpace α) (M : List (List Coord)) : Prop where
  space : SpaceInv ds l ls M
  rep : RepInv ds l ls.groups M
  cents : ∀ g ∈ ls.groups, CentFit ds l.toNat g
  full : ∀ m ∈ M, m ≠ []

/-- Placing one sub-series of any values, when infinity exceeds half the threshold. -/
theorem placeOne_any {ds : Dataset α} {L : Nat} {R : List (List α)} (hds : ds.Holds L R) {l : Int}
    (hl : 1 ≤ l) {d : Dist α} (hd : DistDefined d l.toNat l.toNat) {th : α}
    (hth : gt (inf : α) (div th (ofInt 2)) = true) {ls : LocalSpace α} {M} (hi : AnyInv ds l ls M) {c : Coord}
    (hc : IsSub ds.itemCount ds.itemLength l c) (hnew : c ∉ M.flatten) :
    (placeOne ds d th c.1 c.2 ls).Ensures fun ls' => ∃ M', AnyInv ds l ls' M' ∧
      M'.flatten.Perm (c :: M.flatten) := by
  obtain ⟨hres, hlen⟩ := resolve_any hds hl hc
  obtain ⟨s, hs, f1, f2, f3, f4⟩ := nearest_any hd hi.cents (by rw [← hlen]; exact whole_mk (subVals R l c)) inf
  obtain ⟨hsame, hidx⟩ := nearest_shape _ _ _ _ _ _ hs
  by_cases hb : (gt s.best (div th (ofInt 2)) || len s.groups == 0) = true
  · obtain ⟨ls', g', e1, e2, e3, e4, e5⟩ := placeOne_new hl hi.space hi.rep hc hnew hres hs hb
    refine ⟨ls', e1, M ++ [[c]], ⟨e2, e3, ?_, ?_⟩, ?_⟩
    · rw [e4]
      intro g hg
      rcases List.mem_append.mp hg with h | h
      · exact f1 g h
      · rw [List.mem_singleton] at h
        subst h
        refine ⟨Series.mk' (subVals R l c), ?_, by rw [← hlen]; exact whole_mk _⟩
        unfold Cent.resolve
        rw [e5]
        simp only [hres, Res.bind_ok]
        rfl
    · intro m hm
      rcases List.mem_append.mp hm with h | h
      · exact hi.full m h
      · rw [List.mem_singleton] at h
        rw [h]
        simp
    · rw [List.flatten_append]
      simp only [List.flatten_cons, List.flatten_nil, List.append_nil]
      exact List.perm_append_comm
  · cases hbi : s.bestIdx with
    | none =>
      exfalso
      apply hb
      rw [f4 hbi, hth]
      rfl
    | some i =>
      obtain ⟨b1, b2⟩ := hidx i hbi
      obtain ⟨k, rfl⟩ := Int.eq_ofNat_of_zero_le b1
      have hk : k < M.length := by
        have := hi.space.card
        simp only [len] at b2
        omega
      have hks : k < s.groups.length := by rw [hsame.1, hi.space.card]; exact hk
      obtain ⟨ls', g', e1, e2, e3, e4, e5⟩ := placeOne_old hl hi.space hi.rep hc hnew hres hs hb hk hbi
      refine ⟨ls', e1, M.set k (c :: M[k]), ⟨e2, e3, ?_, ?_⟩, flatten_set_perm M c k hk⟩
      · rw [e4]
        intro g hg
        rcases List.mem_or_eq_of_mem_set hg with h | h
        · exact f1 g h
        · subst h
          have := f1 _ (List.getElem_mem hks)
          unfold CentFit at this ⊢
          rw [e5 hks]
          exact this
      · intro m hm
        rcases List.mem_or_eq_of_mem_set hm with h | h
        · exact hi.full m h
        · rw [h]
          simp

theorem generate_any {ds : Dataset α} {L : Nat} {R : List (List α)} (hds : ds.Holds L R) {l : Int}
    (hl : 1 ≤ l) {d : Dist α} (hd : DistDefined d l.toNat l.toNat) {th : α}
    (hth : gt (inf : α) (div th (ofInt 2)) = true) (doLog : Bool) {ls : LocalSpace α}
    (hls : LocalSpace.new ds l = .ok ls)
    (hlog : ∀ _ : 0 < ds.itemCount ∧ 0 < ls.subCount, logProgress doLog (ls.subCount * ds.itemCount) = .ok ()) :
    (ls.generateGroups ds d th doLog).Ensures fun ls' => ∃ M, AnyInv ds l ls' M ∧
      ∀ c, c ∈ M.flatten ↔ IsSub ds.itemCount ds.itemLength l c := by
  obtain ⟨h1, h2, h3⟩ := spaceInv_new hls
  refine generateGroups_ensures (by rw [hds.itemCount]; omega) h1.subCount hlog
    (fun ls S => ∃ M, AnyInv ds l ls M ∧ ∀ c, c ∈ M.flatten ↔ S c)
    ⟨[], ⟨h1, h2, by rw [h3]; simp, by simp⟩, by simp⟩ ?_
  rintro ls S c ⟨M, hi, hS⟩ hc hnS
  refine (placeOne_any hds hl hd hth hi hc (fun h => hnS ((hS c).mp h))).mono ?_
  rintro ls' ⟨M', hi', hp⟩
  refine ⟨M', hi', ?_⟩
  intro c'
  rw [hp.mem_iff, List.mem_cons, hS]
  exact or_comm

end Onex
