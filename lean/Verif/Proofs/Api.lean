import Verif.Spec.Api
import Verif.Proofs.DatasetInv
import Mathlib.Data.List.Basic
import Mathlib.Data.List.Count

/-!
# Slots of the API object
-/

namespace Onex

open Spec

set_option linter.unusedSectionVars false

variable {α : Type} [DataT α]

theorem get_eq (a : Api α) (i : Int) :
    a.get i = match dataset a i with
      | some s => .ok s
      | none => .throw "There is no dataset with given index" := by
  unfold Api.get dataset
  by_cases h : i < 0
  · rw [if_pos (Or.inl h), if_pos h]
  · rw [if_neg h]
    by_cases h' : i ≥ len a.slots
    · rw [if_pos (Or.inr h')]
      have : a.slots[i.toNat]? = none := by
        rw [List.getElem?_eq_none_iff]
        simp only [len] at h'
        omega
      rw [this]
      rfl
    · rw [if_neg (by omega)]
      rcases a.slots[i.toNat]? with _ | _ | s <;> rfl

theorem get_some {a : Api α} {i : Int} {s : GSet α} (h : dataset a i = some s) : a.get i = .ok s := by
  rw [get_eq, h]

theorem get_none {a : Api α} {i : Int} (h : dataset a i = none) :
    a.get i = .throw "There is no dataset with given index" := by
  rw [get_eq, h]

theorem dataset_range {a : Api α} {i : Int} (h : dataset a i ≠ none) : 0 ≤ i ∧ i < len a.slots := by
  unfold dataset at h
  split at h
  · exact absurd rfl h
  · refine ⟨by omega, ?_⟩
    by_contra hc
    apply h
    have : a.slots[i.toNat]? = none := by
      rw [List.getElem?_eq_none_iff]
      simp only [len] at hc
      omega
    rw [this]
    rfl

theorem dataset_set {slots : List (Option (GSet α))} {c : Int} {r : α} {i : Int} (h0 : 0 ≤ i)
    (h1 : i < len slots) (v : Option (GSet α)) (c' : Int) (r' : α) (j : Int) :
    dataset ⟨slots.set i.toNat v, c', r'⟩ j = if j = i then v else dataset ⟨slots, c, r⟩ j := by
  unfold dataset
  by_cases hj : j < 0
  · rw [if_pos hj, if_neg (by omega), if_pos hj]
  · rw [if_neg hj, if_neg hj]
    simp only [List.getElem?_set]
    by_cases e : j = i
    · subst e
      simp only [len] at h1
      rw [if_pos rfl, if_pos rfl, if_pos (by omega)]
      rfl
    · rw [if_neg e, if_neg (by omega)]

theorem dataset_put {a : Api α} {i : Int} (h : dataset a i ≠ none) (s : GSet α) (j : Int) :
    dataset (a.put i s) j = if j = i then some s else dataset a j := by
  obtain ⟨h0, h1⟩ := dataset_range h
  exact dataset_set h0 h1 (some s) _ _ j

/-- Running a method on a bound id. -/
theorem on_some {β : Type} {a : Api α} {i : Int} {s : GSet α} (h : dataset a i = some s)
    (f : GSet α → Eff (GSet α) β) : a.on i f = ((f s).1, a.put i (f s).2) := by
  unfold Api.on
  rw [get_some h]

theorem on_none {β : Type} {a : Api α} {i : Int} (h : dataset a i = none) (f : GSet α → Eff (GSet α) β) :
    a.on i f = (.throw "There is no dataset with given index", a) := by
  unfold Api.on
  rw [get_none h]

/-! ## The free slot -/

theorem findFree_spec : ∀ (sl : List (Option (GSet α))) (k : Int), 0 ≤ k →
    (Api.findFree sl k = -1 ∧ ∀ j : Nat, j < sl.length → sl[j]?.join ≠ none) ∨
    ∃ j : Nat, j < sl.length ∧ Api.findFree sl k = k + j ∧ sl[j]? = some none ∧ ∀ i : Nat, i < j → sl[i]?.join ≠ none
  | [], k, _ => Or.inl ⟨rfl, fun j hj => absurd hj (Nat.not_lt_zero _)⟩
  | none :: rest, k, _ => Or.inr ⟨0, by simp, by simp [Api.findFree], rfl, fun i hi => absurd hi (Nat.not_lt_zero _)⟩
  | some s :: rest, k, hk => by
    have hs : ∀ (n : Nat), (∀ i : Nat, i < n → rest[i]?.join ≠ none) → ∀ i : Nat, i < n + 1 →
        (some s :: rest)[i]?.join ≠ none := by
      intro n h i hi
      rcases i with _ | i
      · simp
      · simpa using h i (by omega)
    rcases findFree_spec rest (k + 1) (by omega) with ⟨h1, h2⟩ | ⟨j, h1, h2, h3, h4⟩
    · exact Or.inl ⟨h1, fun j hj => hs _ h2 j (by simpa using hj)⟩
    · refine Or.inr ⟨j + 1, by simpa using h1, ?_, by simpa using h3, hs j h4⟩
      change Api.findFree rest (k + 1) = _
      rw [h2]
      push_cast
      omega

/-! ## Counting -/

/-- The slots in use. -/
def usedIds (a : Api α) : List Int :=
  (List.range a.slots.length).filterMap fun (k : Nat) => (a.slots[k]?.join).map fun _ => (k : Int)

theorem usedIds_inUse (a : Api α) : IdsInUse a (usedIds a) := by
  constructor
  · refine List.Pairwise.filterMap (R := (· < ·)) _ ?_ List.pairwise_lt_range
    intro k k' hk b hb b' hb'
    rcases hx : a.slots[k]?.join with _ | x
    · rw [hx] at hb
      simp at hb
    rcases hy : a.slots[k']?.join with _ | y
    · rw [hy] at hb'
      simp at hb'
    rw [hx] at hb
    rw [hy] at hb'
    simp only [Option.map_some, Option.some.injEq] at hb hb'
    omega
  · intro i
    unfold usedIds
    rw [List.mem_filterMap]
    constructor
    · rintro ⟨k, hk, h⟩
      rcases hx : a.slots[k]?.join with _ | x
      · rw [hx] at h
        simp at h
      rw [hx] at h
      simp only [Option.map_some, Option.some.injEq] at h
      subst h
      unfold dataset
      rw [if_neg (by omega), Int.toNat_natCast, hx]
      simp
    · intro h
      obtain ⟨h0, h1⟩ := dataset_range h
      simp only [len] at h1
      refine ⟨i.toNat, List.mem_range.mpr (by omega), ?_⟩
      unfold dataset at h
      rw [if_neg (by omega)] at h
      obtain ⟨x, hx⟩ := Option.ne_none_iff_exists'.mp h
      rw [hx]
      simp [h0]

theorem countP_range {β : Type} (p : Option β → Bool) : ∀ (l : List β),
    (List.range l.length).countP (fun k => p l[k]?) = l.countP fun x => p (some x)
  | [] => rfl
  | x :: l => by
    rw [List.length_cons, List.range_succ_eq_map, List.countP_cons, List.countP_map, List.countP_cons]
    have := countP_range p l
    simp only [List.getElem?_cons_zero]
    rw [← this]
    rfl

theorem usedIds_length (a : Api α) : (usedIds a).length = a.slots.countP Option.isSome := by
  unfold usedIds
  rw [List.length_filterMap_eq_countP]
  have := countP_range (fun o : Option (Option (GSet α)) => o.join.isSome) a.slots
  simp only [Option.join_some] at this
  rw [← this]
  congr 1
  funext k
  rcases a.slots[k]?.join with _ | x <;> rfl

/-- The counter is right. -/
def Counted (a : Api α) : Prop := a.count = a.slots.countP Option.isSome

theorem Counted.put {a : Api α} (h : Counted a) {i : Int} (hi : dataset a i ≠ none) (s : GSet α) :
    Counted (a.put i s) := by
  obtain ⟨h0, h1⟩ := dataset_range hi
  simp only [len] at h1
  have hl : i.toNat < a.slots.length := by omega
  unfold dataset at hi
  rw [if_neg (by omega), List.getElem?_eq_getElem hl] at hi
  simp only [Option.join_some] at hi
  have hs : a.slots[i.toNat].isSome = true := by
    rwa [Option.isSome_iff_ne_none]
  unfold Counted Api.put
  simp only
  rw [h, List.countP_set hl, if_pos hs]
  have : 0 < a.slots.countP Option.isSome :=
    List.countP_pos_iff.mpr ⟨_, List.getElem_mem hl, hs⟩
  simp only [Option.isSome_some, if_true]
  omega

theorem Counted.on {β : Type} {a : Api α} (h : Counted a) (i : Int) (f : GSet α → Eff (GSet α) β) :
    Counted (a.on i f).2 := by
  rcases hd : dataset a i with _ | s
  · rw [on_none hd]
    exact h
  · rw [on_some hd]
    exact h.put (by simp [hd]) _

/-! ## Loading -/

/-- What a load that does not throw does. -/
theorem load_shape {env : Env α} {file : Option Text} {path : String} {m sc : Int} {seps : Text} {a a' : Api α}
    {r : Res DatasetInfo} (h : a.loadDataset env file path m sc seps = (r, a')) :
    ((∀ i, r ≠ .ok i) ∧ a' = a ∧ ∀ g, (GSet.empty : GSet α).loadData env file path m sc seps ≠ (.ok (), g)) ∨
    ∃ id g, LeastFree a id ∧ (GSet.empty : GSet α).loadData env file path m sc seps = (.ok (), g) ∧
      r = .ok (Api.infoOf id g) ∧ (∀ j, dataset a' j = if j = id then some g else dataset a j) ∧
      a'.count = a.count + 1 ∧ a'.ratio = a.ratio ∧ (Counted a → Counted a') := by
  unfold Api.loadDataset at h
  rcases hl : (GSet.empty : GSet α).loadData env file path m sc seps with ⟨r0, g⟩
  rw [hl] at h
  rcases r0 with u | e | w
  · right
    simp only at h
    have key : ∀ (slots : List (Option (GSet α))) (id : Int), 0 ≤ id → id < len slots → slots[id.toNat]? = some none →
        LeastFree a id → (∀ j, dataset ⟨slots, a.count, a.ratio⟩ j = dataset a j) →
        slots.countP Option.isSome = a.slots.countP Option.isSome →
        (match vset slots id (some g) with
        | .ok slots => (Api.getDatasetInfo { a with slots := slots, count := a.count + 1 } id, { a with slots := slots, count := a.count + 1 })
        | .throw e => (.throw e, a)
        | .ub w => (.ub w, a)) = (r, a') →
        ∃ id g', LeastFree a id ∧ (Res.ok (), g) = (Res.ok u, g') ∧
          r = .ok (Api.infoOf id g') ∧ (∀ j, dataset a' j = if j = id then some g' else dataset a j) ∧
          a'.count = a.count + 1 ∧ a'.ratio = a.ratio ∧ (Counted a → Counted a') := by
      intro slots id h0 h1 hnone hfree hsame hcount he
      rw [show vset slots id (some g) = .ok (slots.set id.toNat (some g)) by
        unfold vset; rw [if_pos ⟨h0, h1⟩]] at he
      simp only [Prod.mk.injEq] at he
      have hd := dataset_set (c := a.count) (r := a.ratio) h0 h1 (some g) (a.count + 1) a.ratio
      obtain ⟨e1, e2⟩ := he
      refine ⟨id, g, hfree, rfl, ?_, ?_, ?_, ?_, ?_⟩
      · rw [← e1]
        unfold Api.getDatasetInfo
        rw [get_some (s := g) (by rw [hd, if_pos rfl])]
        rfl
      · intro j
        rw [← e2, hd, hsame]
      · rw [← e2]
      · rw [← e2]
      · intro hc
        rw [← e2]
        have hl : id.toNat < slots.length := by
          simp only [len] at h1
          omega
        rw [List.getElem?_eq_getElem hl] at hnone
        simp only [Option.some.injEq] at hnone
        unfold Counted at hc ⊢
        simp only
        rw [List.countP_set hl, hnone, hcount, hc]
        simp
    rcases findFree_spec a.slots 0 (le_refl 0) with ⟨f1, f2⟩ | ⟨j, f1, f2, f3, f4⟩
    · rw [f1, if_pos (by decide)] at h
      refine key (a.slots ++ [none]) (len a.slots) (by simp [len]) (by simp [len]) (by simp [len]) ?_ ?_ (by simp) h
      · refine ⟨by simp [len], ?_, ?_⟩
        · by_contra hc
          have := (dataset_range hc).2
          omega
        · intro i h0 h1
          unfold dataset
          rw [if_neg (by omega)]
          exact f2 _ (by simp only [len] at h1; omega)
      · intro j
        unfold dataset
        simp only
        split
        · rfl
        · rw [List.getElem?_append]
          split
          · rfl
          · rename_i hj
            rw [List.getElem?_eq_none (by omega : a.slots.length ≤ j.toNat)]
            rcases hx : j.toNat - a.slots.length with _ | n <;> simp
    · rw [f2, if_neg (by omega)] at h
      refine key a.slots (0 + (j : Int)) (by omega) (by simp [len, f1]) (by simp [f3]) ?_ (fun _ => rfl) rfl h
      refine ⟨by omega, ?_, ?_⟩
      · unfold dataset
        rw [if_neg (by omega)]
        simp [f3]
      · intro i h0 h1
        unfold dataset
        rw [if_neg (by omega)]
        exact f4 _ (by omega)
  · left
    simp only [Prod.mk.injEq] at h
    obtain ⟨e1, e2⟩ := h
    exact ⟨by intro i; rw [← e1]; simp, e2.symm, by simp⟩
  · left
    simp only [Prod.mk.injEq] at h
    obtain ⟨e1, e2⟩ := h
    exact ⟨by intro i; rw [← e1]; simp, e2.symm, by simp⟩

/-! ## Unloading -/

theorem unload_shape {a : Api α} {i : Int} (h : dataset a i ≠ none) :
    (a.unloadDataset i).1 = .ok () ∧
      (∀ j, dataset (a.unloadDataset i).2 j = if j = i then none else dataset a j) ∧
      (a.unloadDataset i).2.count = a.count - 1 ∧ (a.unloadDataset i).2.ratio = a.ratio ∧
      (Counted a → Counted (a.unloadDataset i).2) := by
  obtain ⟨h0, h1⟩ := dataset_range h
  obtain ⟨s, hs⟩ := Option.ne_none_iff_exists'.mp h
  have hl : i.toNat < a.slots.length := by
    simp only [len] at h1
    omega
  have hd := dataset_set (c := a.count) (r := a.ratio) h0 h1 none (a.count - 1) a.ratio
  have hcount : a.slots.countP Option.isSome = (a.slots.set i.toNat none).countP Option.isSome + 1 := by
    have hss : a.slots[i.toNat].isSome = true := by
      unfold dataset at h
      rw [if_neg (by omega), List.getElem?_eq_getElem hl] at h
      rwa [Option.isSome_iff_ne_none]
    have : 0 < a.slots.countP Option.isSome := List.countP_pos_iff.mpr ⟨_, List.getElem_mem hl, hss⟩
    rw [List.countP_set hl, if_pos hss]
    simp only [Option.isSome_none, Bool.false_eq_true, if_false]
    omega
  unfold Api.unloadDataset
  rw [get_some hs]
  dsimp only
  by_cases hlast : i = len (a.slots.set i.toNat none) - 1
  · rw [if_pos hlast]
    have hL : a.slots.length = i.toNat + 1 := by
      simp only [len, List.length_set] at hlast
      omega
    have hdrop : ∀ k : Nat, k < i.toNat → (a.slots.set i.toNat none).dropLast[k]? = (a.slots.set i.toNat none)[k]? := by
      intro k hk
      rw [List.getElem?_dropLast, if_pos (by rw [List.length_set]; omega)]
    have hsplit : a.slots.set i.toNat none = (a.slots.set i.toNat none).dropLast ++ [none] := by
      have hne : a.slots.set i.toNat none ≠ [] := by
        intro hc
        have := congrArg List.length hc
        rw [List.length_set, hL] at this
        simp at this
      conv_lhs => rw [← List.dropLast_append_getLast hne]
      congr 2
      rw [List.getLast_eq_getElem]
      simp [hL]
    refine ⟨rfl, ?_, rfl, rfl, ?_⟩
    · intro j
      have hdj := hd j
      by_cases e : j = i
      · rw [if_pos e]
        by_contra hc
        have := (dataset_range hc).2
        simp only [len, List.length_dropLast, List.length_set] at this
        omega
      · rw [if_neg e]
        rw [if_neg e] at hdj
        rw [← hdj]
        unfold dataset
        simp only
        split
        · rfl
        · by_cases hlt : j.toNat < i.toNat
          · rw [hdrop _ hlt]
          · rw [List.getElem?_eq_none (by simp only [List.length_dropLast, List.length_set]; omega),
              List.getElem?_eq_none (by simp only [List.length_set]; omega)]
    · intro hc
      unfold Counted at hc ⊢
      rw [hsplit, List.countP_append] at hcount
      simp only [List.countP_cons, List.countP_nil, Option.isSome_none, Bool.false_eq_true, if_false] at hcount
      simp only
      rw [hc]
      omega
  · rw [if_neg hlast]
    refine ⟨rfl, hd, rfl, rfl, ?_⟩
    intro hc
    unfold Counted at hc ⊢
    simp only
    rw [hc]
    omega

/-! ## Listing -/

theorem allInfo_spec (a : Api α) : a.getAllDatasetInfo =
    .ok ((usedIds a).filterMap fun i => (dataset a i).map (Api.infoOf i)) := by
  have h : a.getAllDatasetInfo.Ensures fun x => x = (List.range (len a.slots).toNat).filterMap fun (k : Nat) =>
      (dataset a k).map (Api.infoOf k) := by
    unfold Api.getAllDatasetInfo
    refine forInt_ensures (fun j x => x = (List.range j.toNat).filterMap fun (k : Nat) => (dataset a k).map (Api.infoOf k))
      (by simp [len]) rfl ?_
    intro j x h0 h1 hx
    have hl : j.toNat < a.slots.length := by
      simp only [len] at h1
      omega
    have hdj : dataset a j = a.slots[j.toNat] := by
      unfold dataset
      rw [if_neg (by omega), List.getElem?_eq_getElem hl]
      rfl
    have hv : vget a.slots j = .ok a.slots[j.toNat] := by
      unfold vget
      rw [if_pos h0, List.getElem?_eq_getElem hl]
    have hj : (j + 1).toNat = j.toNat + 1 := by omega
    have hjj : ((j.toNat : Nat) : Int) = j := by omega
    rw [hv]
    simp only [Res.bind_ok]
    rcases hs : a.slots[j.toNat] with _ | s
    · refine Res.ensures_ok.mpr ?_
      rw [hj, List.range_succ, List.filterMap_append, ← hx]
      simp [hjj, hdj, hs]
    · have hg : a.getDatasetInfo j = .ok (Api.infoOf j s) := by
        unfold Api.getDatasetInfo
        rw [get_some (s := s) (by rw [hdj, hs])]
        rfl
      simp only [hg, Res.bind_ok, Res.pure_eq]
      refine Res.ensures_ok.mpr ?_
      rw [hj, List.range_succ, List.filterMap_append, ← hx]
      simp [hjj, hdj, hs]
  obtain ⟨x, hx, e⟩ := h
  rw [hx, e]
  congr 1
  unfold usedIds
  rw [List.filterMap_filterMap]
  simp only [len, Int.toNat_natCast]
  congr 1
  funext k
  have : dataset a k = a.slots[k]?.join := by
    unfold dataset
    rw [if_neg (by omega), Int.toNat_natCast]
  rcases hx : a.slots[k]?.join with _ | y
  · simp [this, hx]
  · simp [this, hx]

end Onex
