import Verif.Props.Api
import Mathlib.Data.List.Nodup

/-!
# C41: ids stay small
-/

namespace Onex

open Spec

variable {α : Type} [DataT α]

theorem unloadAll_none (env : Env α) (a : Api α) (j : Int) : dataset (a.step env .unloadAll).2 j = none := by
  unfold dataset
  split
  · rfl
  · simp [Api.step, Api.unloadAllDataset]

/-- Only a load binds an id. -/
theorem step_fresh (env : Env α) (a : Api α) (c : Call α) (j : Int) (h : dataset a j = none)
    (h' : dataset (a.step env c).2 j ≠ none) : LeastFree a j := by
  by_cases hj : j ∈ ids c
  · rw [C42_unknown_id env a c j hj h] at h'
    exact absurd h h'
  cases c with
  | load file path m sc seps =>
    simp only [Api.step] at h'
    rcases hl : a.loadDataset env file path m sc seps with ⟨r, a'⟩
    rw [hl] at h'
    rcases load_shape hl with ⟨_, e, _⟩ | ⟨id, g, hfree, _, _, hd, _⟩
    · rw [e] at h'
      exact absurd h h'
    · change dataset a' j ≠ none at h'
      rw [hd] at h'
      by_cases e : j = id
      · exact e ▸ hfree
      · rw [if_neg e] at h'
        exact absurd h h'
  | unload i =>
    refine absurd ?_ h'
    simp only [Api.step]
    by_cases hi : dataset a i = none
    · unfold Api.unloadDataset
      rw [get_none hi]
      exact h
    · rw [(unload_shape hi).2.1, h]
      split <;> rfl
  | unloadAll =>
    refine absurd ?_ h'
    exact unloadAll_none env a j
  | normalize i => exact absurd (h ▸ step_normalize env a i ▸ on_other _ (by simpa [ids] using hj)) h'
  | group i st => exact absurd (h ▸ step_group env a i st ▸ on_other _ (by simpa [ids] using hj)) h'
  | loadGroup i f => exact absurd (h ▸ step_loadGroup env a i f ▸ on_other _ (by simpa [ids] using hj)) h'
  | bestMatch r q i st e =>
    have hr : j ≠ r := by
      rintro rfl
      simp [ids] at hj
    refine absurd ?_ h'
    simp only [Api.step, match_eq]
    rcases querySeries a r q i st e with x | x | x
    · exact (on_other _ hr).trans h
    · exact h
    · exact h
  | paa i n =>
    refine absurd ?_ h'
    simp only [Api.step, paa_eq]
    exact (on_other _ (by simpa [ids] using hj)).trans h
  | save _ _ _ _ => exact absurd h h'
  | info _ => exact absurd h h'
  | allInfo => exact absurd h h'
  | saveGroup _ _ _ => exact absurd h h'
  | setRatio _ => exact absurd h h'

/-- The ids below an id bound together with all ids before it. -/
theorem below_count {a : Api α} (hc : Counted a) {j : Int} (h0 : 0 ≤ j) (h : ∀ i, 0 ≤ i → i ≤ j → dataset a i ≠ none) : j < a.count := by
  have hs : ((List.range (j.toNat + 1)).map Int.ofNat).Subperm (usedIds a) := by
    refine List.subperm_of_subset ?_ ?_
    · exact List.Nodup.map (fun x y e => Int.ofNat.inj e) List.nodup_range
    · intro i hi
      obtain ⟨k, hk, rfl⟩ := List.mem_map.mp hi
      rw [List.mem_range] at hk
      exact (usedIds_inUse a).2 _ |>.mpr (h _ (by simp) (by simp; omega))
  have := hs.length_le
  rw [List.length_map, List.length_range, usedIds_length] at this
  rw [hc]
  omega

theorem run_small (K : Int) : ∀ (h : List (Env α × Call α)) (a a' : Api α), Counted a → (∀ i, dataset a i ≠ none → i < K) →
    (∀ h1 h2 b, h = h1 ++ h2 → Api.run a h1 = some b → b.count ≤ K) → Api.run a h = some a' → ∀ i, dataset a' i ≠ none → i < K
  | [], a, a', _, hs, _, e => by
    simp only [Api.run, Option.some.injEq] at e
    exact e ▸ hs
  | (env, c) :: cs, a, a', hc, hs, hK, e => by
    have hcount := step_counted env a c hc
    have hfresh := step_fresh env a c
    have hkeep : ∀ i, c ≠ .unload i → c ≠ .unloadAll → dataset a i ≠ none → dataset (a.step env c).2 i ≠ none := by
      intro i h1 h2 hi
      obtain ⟨s, hs⟩ := Option.ne_none_iff_exists'.mp hi
      obtain ⟨s', e, _⟩ := step_keeps env a c i h1 h2 hs
      rw [e]
      simp
    have hun : (∀ i, c = .unload i ∨ c = .unloadAll → ∀ j, dataset a j = none → dataset (a.step env c).2 j = none) := by
      rintro i (rfl | rfl) j hj
      · simp only [Api.step]
        by_cases hi : dataset a i = none
        · unfold Api.unloadDataset
          rw [get_none hi]
          exact hj
        · rw [(unload_shape hi).2.1, hj]
          split <;> rfl
      · exact unloadAll_none env a j
    unfold Api.run at e
    rcases hst : a.step env c with ⟨r, b⟩
    simp only [hst] at e hcount hfresh hkeep hun
    have hrun : (∀ w, r ≠ .ub w) → ∀ l, Api.run a ((env, c) :: l) = Api.run b l := by
      intro hr l
      conv_lhs => unfold Api.run
      simp only [hst]
    have hr : ∀ w, r ≠ .ub w := by
      rintro w rfl
      simp at e
    have next : ∀ i, dataset b i ≠ none → i < K := by
      intro i hi
      by_cases hd : dataset a i = none
      · have hl := hfresh i hd hi
        have hb : i < b.count := by
          refine below_count hcount hl.1 fun k k0 ki => ?_
          rcases ki.lt_or_eq with hlt | rfl
          · have hbound := hl.2.2 k k0 hlt
            refine hkeep k ?_ ?_ hbound
            · intro he
              exact hi (hun k (.inl he) i hd)
            · intro he
              exact hi (hun k (.inr he) i hd)
          · exact hi
        exact lt_of_lt_of_le hb (hK [(env, c)] cs b rfl (by rw [hrun hr]; rfl))
      · exact hs i hd
    have e' : Api.run b cs = some a' := by
      rcases r with x | x | x
      · exact e
      · exact e
      · exact absurd rfl (hr x)
    refine run_small K cs b a' hcount next ?_ e'
    intro h1 h2 b' he hb'
    exact hK ((env, c) :: h1) h2 b' (by rw [he]; rfl) (by rw [hrun hr]; exact hb')

/-- C41: if no more than `K` datasets were ever in use at once, all ids in use are less than `K`: ids are used again. -/
theorem C41_ids_small (ratio : α) (h : List (Env α × Call α)) (a : Api α) (e : Api.run (Api.init ratio) h = some a) (K : Int)
    (hK : ∀ h1 h2 b, h = h1 ++ h2 → Api.run (Api.init ratio) h1 = some b → b.getDatasetCount ≤ K) (i : Int) (hi : dataset a i ≠ none) :
    0 ≤ i ∧ i < K := by
  refine ⟨(dataset_range hi).1, run_small K h _ a (rfl : Counted (Api.init ratio)) ?_ hK e i hi⟩
  intro j hj
  refine absurd ?_ hj
  unfold dataset
  split
  · rfl
  · simp [Api.init]

/-- Loading, unloading and loading again: never more than one dataset, and the id is 0 again. -/
example (env : Env α) (ratio : α) :
    let env : Env α := { env with stod := fun _ => .val DataT.zero }
    let ld : Env α × Call α := (env, .load (some "1 2\n3 4\n".toList) "f" 0 0 [' '])
    ∃ a, Api.run (Api.init ratio) [ld, (env, .unload 0), ld] = some a ∧ dataset a 0 ≠ none ∧
      ∀ h1 h2 b, [ld, (env, .unload 0), ld] = h1 ++ h2 → Api.run (Api.init ratio) h1 = some b → b.getDatasetCount ≤ 1 := by
  intro env ld
  have e0 : ∃ a, Api.run (Api.init ratio) [] = some a ∧ a.getDatasetCount = 0 := ⟨_, rfl, rfl⟩
  have e1 : ∃ a, Api.run (Api.init ratio) [ld] = some a ∧ a.getDatasetCount = 1 := ⟨_, rfl, rfl⟩
  have e2 : ∃ a, Api.run (Api.init ratio) [ld, (env, .unload 0)] = some a ∧ a.getDatasetCount = 0 := ⟨_, rfl, rfl⟩
  have e3 : ∃ a g, Api.run (Api.init ratio) [ld, (env, .unload 0), ld] = some a ∧ a.getDatasetCount = 1 ∧ dataset a 0 = some g :=
    ⟨_, _, rfl, rfl, rfl⟩
  obtain ⟨a0, a1, a2⟩ := e0
  obtain ⟨b0, b1, b2⟩ := e1
  obtain ⟨c0, c1, c2⟩ := e2
  obtain ⟨d0, g, d1, d2, d3⟩ := e3
  refine ⟨d0, d1, by rw [d3]; simp, ?_⟩
  intro h1 h2 b he hb
  have hp : h1 = [ld, (env, .unload 0), ld].take h1.length := by rw [he]; simp
  have hl : h1.length ≤ 3 := by
    have := congrArg List.length he
    simp at this
    omega
  generalize h1.length = n at hp hl
  obtain rfl | rfl | rfl | rfl : n = 0 ∨ n = 1 ∨ n = 2 ∨ n = 3 := by omega
  all_goals
    simp only [List.take_zero, List.take_succ_cons, List.take_nil] at hp
    subst hp
  · rw [a1, Option.some.injEq] at hb
    rw [← hb, a2]
    decide
  · rw [b1, Option.some.injEq] at hb
    rw [← hb, b2]
  · rw [c1, Option.some.injEq] at hb
    rw [← hb, c2]
    decide
  · rw [d1, Option.some.injEq] at hb
    rw [← hb, d2]

end Onex
