import Verif.Spec.Members
import Verif.Proofs.Basic
import Mathlib.Data.List.Nodup
import Mathlib.Data.Finset.Card

/-!
# The linked list of members inside the member map
-/

namespace Onex
open Spec

set_option linter.unusedSectionVars false
variable {α : Type} [DataT α]

/-- Position of a coordinate in the member map. -/
def slot (sub : Int) (c : Coord) : Int := c.1 * sub + c.2

/-- Following `prev` from `cur` visits exactly `ms` and then ends. -/
inductive Chain (mm : List Membership) (sub : Int) : Coord → List Coord → Prop where
  | nil (c : Coord) (h : c.1 = -1) : Chain mm sub c []
  | cons (c : Coord) (e : Membership) (rest : List Coord) (hc : c.1 ≠ -1)
      (hget : vget mm (slot sub c) = .ok e) (h : Chain mm sub e.prev rest) :
      Chain mm sub c (c :: rest)

theorem slot_inj {cnt len l : Int} {c c' : Coord} (h : IsSub cnt len l c) (h' : IsSub cnt len l c')
    (e : slot (len - l + 1) c = slot (len - l + 1) c') : c = c' := by
  obtain ⟨⟨a1, a2⟩, a3, a4⟩ := h
  obtain ⟨⟨b1, b2⟩, b3, b4⟩ := h'
  simp only [slot] at e
  set n := len - l + 1 with hn
  have h1 : c.2 < n := by omega
  have h2 : c'.2 < n := by omega
  have h3 : c.1 = c'.1 := by
    rcases lt_trichotomy c.1 c'.1 with h | h | h
    · have : (c.1 + 1) * n ≤ c'.1 * n := mul_le_mul_of_nonneg_right h (by omega)
      have e2 : (c.1 + 1) * n = c.1 * n + n := by ring
      omega
    · exact h
    · have : (c'.1 + 1) * n ≤ c.1 * n := mul_le_mul_of_nonneg_right h (by omega)
      have e2 : (c'.1 + 1) * n = c'.1 * n + n := by ring
      omega
  rw [h3] at e
  exact Prod.ext h3 (by omega)

theorem slot_bounds {cnt len l : Int} {c : Coord} (h : IsSub cnt len l c) :
    0 ≤ slot (len - l + 1) c ∧ slot (len - l + 1) c < cnt * (len - l + 1) := by
  obtain ⟨⟨a1, a2⟩, a3, a4⟩ := h
  simp only [slot]
  set n := len - l + 1 with hn
  have h1 : c.2 < n := by omega
  have h0 : 0 ≤ c.1 * n := mul_nonneg a1 (by omega)
  have : (c.1 + 1) * n ≤ cnt * n := mul_le_mul_of_nonneg_right a2 (by omega)
  have e2 : (c.1 + 1) * n = c.1 * n + n := by ring
  constructor <;> omega

/-- Writing the slot of another coordinate leaves a chain alone. -/
theorem Chain.vset {mm mm' : List Membership} {sub : Int} {cur : Coord} {ms : List Coord}
    (h : Chain mm sub cur ms) {i : Int} {v : Membership} (hs : vset mm i v = .ok mm')
    (hne : ∀ c ∈ ms, slot sub c ≠ i) : Chain mm' sub cur ms := by
  induction h with
  | nil c h => exact .nil c h
  | cons c e rest hc hget _ ih =>
    refine .cons c e rest hc ?_ (ih fun c hc => hne c (by simp [hc]))
    rw [vget_vset hs, if_neg (hne c (by simp)), hget]

theorem Chain.unique {mm : List Membership} {sub : Int} {cur : Coord} {ms ms' : List Coord}
    (h : Chain mm sub cur ms) (h' : Chain mm sub cur ms') : ms = ms' := by
  induction h generalizing ms' with
  | nil c h =>
    cases h' with
    | nil => rfl
    | cons _ _ _ hc => exact absurd h hc
  | cons c e rest hc hget _ ih =>
    cases h' with
    | nil _ h => exact absurd h hc
    | cons _ e' rest' _ hget' h' =>
      rw [hget] at hget'
      cases hget'
      rw [ih h']

/-- What the code relies on for one group: its list of members is in the map, newest first. -/
structure GroupInv (ds : Dataset α) (l : Int) (mm : List Membership) (g : Group α)
    (ms : List Coord) : Prop where
  memberLength : g.memberLength = l
  subCount : g.subCount = ds.itemLength - l + 1
  count : g.count = ms.length
  chain : Chain mm (ds.itemLength - l + 1) g.last ms
  subs : ∀ c ∈ ms, IsSub ds.itemCount ds.itemLength l c
  nodup : ms.Nodup

theorem getTimeSeries_sub {ds : Dataset α} {l : Int} (hl : 1 ≤ l) {c : Coord}
    (h : IsSub ds.itemCount ds.itemLength l c) :
    ds.getTimeSeries c.1 c.2 (c.2 + l) = .ok (subView ds l c) := by
  obtain ⟨⟨a1, a2⟩, a3, a4⟩ := h
  unfold Dataset.getTimeSeries
  rw [if_neg (by omega), if_neg (by omega), if_neg (by omega)]
  rfl

/-- Distinct members occupy distinct slots, so there are no more of them than slots. -/
theorem members_le {ds : Dataset α} {l : Int} {mm : List Membership} {ms : List Coord}
    (hmm : len mm = ds.itemCount * (ds.itemLength - l + 1))
    (hs : ∀ c ∈ ms, IsSub ds.itemCount ds.itemLength l c) (hn : ms.Nodup) :
    ms.length ≤ mm.length := by
  have h1 : (ms.map fun c => (slot (ds.itemLength - l + 1) c).toNat).Nodup := by
    refine hn.map_on ?_
    intro c hc c' hc' e
    have b := slot_bounds (hs c hc)
    have b' := slot_bounds (hs c' hc')
    exact slot_inj (hs c hc) (hs c' hc') (by omega)
  have h2 : (ms.map fun c => (slot (ds.itemLength - l + 1) c).toNat).length ≤ (List.range mm.length).length := by
    refine (h1.subperm ?_).length_le
    intro x hx
    simp only [List.mem_map] at hx
    obtain ⟨c, hc, rfl⟩ := hx
    have b := slot_bounds (hs c hc)
    simp only [List.mem_range]
    simp only [len] at hmm
    omega
  simpa using h2

theorem membersLoop_spec {ds : Dataset α} {l : Int} (hl : 1 ≤ l) {mm : List Membership} {g : Group α}
    (hg1 : g.memberLength = l) (hg2 : g.subCount = ds.itemLength - l + 1) :
    ∀ (fuel : Nat) (cur : Coord) (ms : List Coord), ms.length ≤ fuel →
      Chain mm (ds.itemLength - l + 1) cur ms →
      (∀ c ∈ ms, IsSub ds.itemCount ds.itemLength l c) →
      g.membersLoop ds mm fuel cur = .ok (ms.map (subView ds l)) := by
  intro fuel
  induction fuel with
  | zero =>
    intro cur ms hle hc _
    cases hc with
    | nil _ h => simp [Group.membersLoop, h]
    | cons => simp at hle
  | succ fuel ih =>
    intro cur ms hle hc hs
    cases hc with
    | nil _ h => simp [Group.membersLoop, h]
    | cons _ e rest hc hget h =>
      unfold Group.membersLoop
      rw [if_neg hc]
      simp only
      rw [hg1, getTimeSeries_sub hl (hs cur (by simp)), Res.bind_ok, hg2,
        show cur.1 * (ds.itemLength - l + 1) + cur.2 = slot (ds.itemLength - l + 1) cur from rfl, hget,
        Res.bind_ok, ih e.prev rest (by simpa using hle) h (fun c hc => hs c (by simp [hc]))]
      rfl

theorem getMembers_spec {ds : Dataset α} {l : Int} (hl : 1 ≤ l) {mm : List Membership} {g : Group α}
    {ms : List Coord} (hmm : len mm = ds.itemCount * (ds.itemLength - l + 1))
    (h : GroupInv ds l mm g ms) : g.getMembers ds mm = .ok (ms.map (subView ds l)) := by
  unfold Group.getMembers
  exact membersLoop_spec hl h.memberLength h.subCount _ _ _
    (le_trans (members_le hmm h.subs h.nodup) (by omega)) h.chain h.subs

theorem groupInv_new (ds : Dataset α) (l k : Int) (mm : List Membership) :
    GroupInv ds l mm (Group.new k l (ds.itemLength - l + 1)) [] where
  memberLength := rfl
  subCount := rfl
  count := rfl
  chain := .nil _ rfl
  subs := by simp
  nodup := by simp

/-- Adding a member to a group extends its list. -/
theorem addMember_spec {ds : Dataset α} {l : Int} {mm : List Membership} {g : Group α} {ms : List Coord}
    (hmm : len mm = ds.itemCount * (ds.itemLength - l + 1)) (h : GroupInv ds l mm g ms) {c : Coord}
    (hc : IsSub ds.itemCount ds.itemLength l c) (hnew : c ∉ ms) :
    ∃ g' mm', g.addMember mm c.1 c.2 = .ok (g', mm') ∧ GroupInv ds l mm' g' (c :: ms) ∧
      len mm' = len mm ∧ g'.centroid = g.centroid ∧ g'.groupIndex = g.groupIndex ∧
      (∀ (h : Group α) (ms' : List Coord), GroupInv ds l mm h ms' → c ∉ ms' → GroupInv ds l mm' h ms') := by
  have b := slot_bounds hc
  have hs := vset_ok (l := mm) (i := slot (ds.itemLength - l + 1) c)
    ({ groupIndex := g.groupIndex, prev := g.last } : Membership) b.1 (by rw [hmm]; exact b.2)
  have keep : ∀ (h : Group α) (ms' : List Coord), GroupInv ds l mm h ms' → c ∉ ms' →
      Chain (mm.set (slot (ds.itemLength - l + 1) c).toNat { groupIndex := g.groupIndex, prev := g.last })
        (ds.itemLength - l + 1) h.last ms' := by
    intro h' ms' hi hn
    refine hi.chain.vset hs ?_
    intro c' hc' e
    exact hn (slot_inj (hi.subs c' hc') hc e ▸ hc')
  refine ⟨{ g with count := g.count + 1, last := (c.1, c.2) },
    mm.set (slot (ds.itemLength - l + 1) c).toNat { groupIndex := g.groupIndex, prev := g.last },
    ?_, ?_, ?_, rfl, rfl, ?_⟩
  · unfold Group.addMember
    rw [h.subCount, show c.1 * (ds.itemLength - l + 1) + c.2 = slot (ds.itemLength - l + 1) c from rfl, hs]
    rfl
  · refine ⟨h.memberLength, h.subCount, ?_, ?_, ?_, ?_⟩
    · simp [h.count]
    · refine .cons c { groupIndex := g.groupIndex, prev := g.last } ms (by have := hc.1.1; omega) ?_ (keep g ms h hnew)
      rw [vget_vset hs, if_pos rfl]
    · intro c' hc'
      rcases List.mem_cons.mp hc' with rfl | hc'
      · exact hc
      · exact h.subs c' hc'
    · exact List.nodup_cons.mpr ⟨hnew, h.nodup⟩
  · simp
  · intro h' ms' hi hn
    exact ⟨hi.memberLength, hi.subCount, hi.count, keep h' ms' hi hn, hi.subs, hi.nodup⟩

end Onex
