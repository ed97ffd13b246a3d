import Verif.Proofs.Chain

/-!
# Property C29: a group lists exactly the members that were added
-/

namespace Onex
open Spec

set_option linter.unusedSectionVars false
variable {α : Type} [DataT α]

/-- `groups[k].addMember(index, start)` for groups that share a member map. -/
def addTo (s : List (Group α) × List Membership) (op : Nat × Coord) :
    Res (List (Group α) × List Membership) := do
  let g ← vget s.1 op.1
  let (g, mm) ← g.addMember s.2 op.2.1 op.2.2
  let gs ← vset s.1 op.1 g
  return (gs, mm)

/-- A sequence of additions. -/
def addAll : List (Nat × Coord) → List (Group α) × List Membership →
    Res (List (Group α) × List Membership)
  | [], s => .ok s
  | op :: ops, s => addTo s op >>= addAll ops

/-- The members that the additions `ops` give to group `k`, newest first. -/
def Spec.addedTo (ops : List (Nat × Coord)) (k : Nat) : List Coord :=
  ((ops.filter (·.1 = k)).map (·.2)).reverse

theorem addAll_spec (ds : Dataset α) (l : Int) : ∀ (ops : List (Nat × Coord)) (gs : List (Group α))
    (mm : List Membership) (M : Nat → List Coord),
    len mm = ds.itemCount * (ds.itemLength - l + 1) →
    (∀ k (hk : k < gs.length), GroupInv ds l mm gs[k] (M k)) →
    (∀ op ∈ ops, op.1 < gs.length ∧ IsSub ds.itemCount ds.itemLength l op.2) →
    (ops.map (·.2)).Nodup → (∀ op ∈ ops, ∀ k, op.2 ∉ M k) →
    ∃ gs' mm', addAll ops (gs, mm) = .ok (gs', mm') ∧ gs'.length = gs.length ∧ len mm' = len mm ∧
      ∀ k (hk : k < gs'.length), GroupInv ds l mm' gs'[k] (addedTo ops k ++ M k)
  | [], gs, mm, M, hmm, hg, _, _, _ => ⟨gs, mm, rfl, rfl, rfl, by simpa [addedTo] using hg⟩
  | op :: ops, gs, mm, M, hmm, hg, ho, hn, hM => by
    obtain ⟨k, c⟩ := op
    obtain ⟨hk, hc⟩ := ho (k, c) (by simp)
    simp only [List.map_cons, List.nodup_cons] at hn
    obtain ⟨g', mm', h1, h2, h3, _, _, h6⟩ := addMember_spec hmm (hg k hk) hc (hM (k, c) (by simp) k)
    have hstep : addTo (gs, mm) (k, c) = .ok (gs.set k g', mm') := by
      unfold addTo
      simp only [vget_nat hk, Res.bind_ok, h1, vset_nat g' hk]
      rfl
    obtain ⟨gs'', mm'', e1, e2, e3, e4⟩ := addAll_spec ds l ops (gs.set k g') mm'
      (fun j => if j = k then c :: M k else M j) (by rw [h3, hmm]) (by
        intro j hj
        simp only [List.length_set] at hj
        by_cases hjk : j = k
        · subst hjk
          simpa using h2
        · rw [if_neg hjk, List.getElem_set_ne (Ne.symm hjk)]
          exact h6 _ _ (hg j hj) (hM (k, c) (by simp) j))
      (fun op h => by simpa using ho op (by simp [h])) hn.2 (by
        intro op h j
        have hne : op.2 ≠ c := fun e => hn.1 (e ▸ List.mem_map_of_mem h)
        by_cases hjk : j = k
        · rw [if_pos hjk]
          simp only [List.mem_cons, not_or]
          exact ⟨hne, hM op (by simp [h]) k⟩
        · rw [if_neg hjk]
          exact hM op (by simp [h]) j)
    refine ⟨gs'', mm'', ?_, by simpa using e2, by rw [e3, h3], ?_⟩
    · unfold addAll
      rw [hstep]
      exact e1
    · intro j hj
      have := e4 j hj
      by_cases hjk : j = k
      · subst hjk
        simpa [addedTo] using this
      · have hkj : k ≠ j := Ne.symm hjk
        simpa [addedTo, hkj, hjk] using this

/-- C29: start with any number of new groups of length `l` and a member map of the right size
(whatever it contains); after any interleaving of additions of distinct sub-series, no
addition failed, and every group lists exactly the sub-series added to it, once each and newest first, and counts
them. -/
theorem C29_members_exact (ds : Dataset α) (l : Int) (hl : 1 ≤ l) (n : Nat) (mm : List Membership)
    (hmm : len mm = ds.itemCount * (ds.itemLength - l + 1)) (ops : List (Nat × Coord))
    (hops : ∀ op ∈ ops, op.1 < n ∧ IsSub ds.itemCount ds.itemLength l op.2)
    (hdistinct : (ops.map (·.2)).Nodup) :
    ∃ gs mm', addAll ops ((List.range n).map fun k : Nat =>
        (Group.new (k : Int) l (ds.itemLength - l + 1) : Group α), mm) = .ok (gs, mm') ∧
      gs.length = n ∧
      ∀ k (hk : k < gs.length),
        gs[k].getMembers ds mm' = .ok ((addedTo ops k).map (subView ds l)) ∧
        gs[k].count = (addedTo ops k).length := by
  obtain ⟨gs, mm', h1, h2, h3, h4⟩ := addAll_spec ds l ops ((List.range n).map fun k : Nat =>
        (Group.new (k : Int) l (ds.itemLength - l + 1) : Group α)) mm (fun _ => []) hmm (by
    intro k hk
    simp only [List.getElem_map, List.getElem_range]
    exact groupInv_new ds l _ mm) (by simpa using hops) hdistinct (by simp)
  refine ⟨gs, mm', h1, by simpa using h2, ?_⟩
  intro k hk
  have := h4 k hk
  rw [List.append_nil] at this
  exact ⟨getMembers_spec hl (by rw [h3, hmm]) this, this.count⟩

/-- A case: two groups of length 2 over two series of length 3, three additions. -/
example : let ds : Dataset Bool := ⟨some [false, true, false, true, true, false], 0, 3, 2, "", false⟩
    let ops : List (Nat × Coord) := [(0, (0, 0)), (1, (1, 0)), (0, (1, 1))]
    (1 : Int) ≤ 2 ∧ len (List.replicate 4 Membership.default) = ds.itemCount * (ds.itemLength - 2 + 1) ∧
    (∀ op ∈ ops, op.1 < 2 ∧ IsSub ds.itemCount ds.itemLength 2 op.2) ∧ (ops.map (·.2)).Nodup ∧
    addedTo ops 0 = [(1, 1), (0, 0)] ∧ addedTo ops 1 = [(1, 0)] := by
  simp [IsSub, addedTo]

end Onex
