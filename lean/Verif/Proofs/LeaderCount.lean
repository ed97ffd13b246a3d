import Verif.Spec.Leader
import Mathlib.Data.Set.Card
import Mathlib.Data.List.Nodup

/-!
# How many groups leader clustering makes
-/

namespace Onex
open Spec

variable {β : Type} {D : β → β → ℝ} {h : ℝ} {cs : List β} {G : List (List β)}

/-- The leaders, in the order their groups were founded. -/
structure Heads (D : β → β → ℝ) (h : ℝ) (cs : List β) (A : List β) : Prop where
  sub : A.Sublist cs
  far : A.Pairwise fun a b => h < D a b
  near : ∀ c ∈ cs, ∃ a ∈ A, D a c ≤ h ∨ a = c

theorem leader_heads (hG : Leader D h cs G) : ∃ A, G.map List.getLast? = A.map some ∧ Heads D h cs A := by
  induction hG with
  | nil => exact ⟨[], rfl, .slnil, .nil, by simp⟩
  | @found cs G c hG far ih =>
    obtain ⟨A, e, hA⟩ := ih
    refine ⟨A ++ [c], by simp [e], hA.sub.append_right [c], ?_, ?_⟩
    · refine List.pairwise_append.mpr ⟨hA.far, List.pairwise_singleton _ _, ?_⟩
      intro a ha b hb
      rw [List.mem_singleton] at hb
      subst hb
      have : some a ∈ G.map List.getLast? := by
        rw [e]
        exact List.mem_map_of_mem ha
      obtain ⟨g, hg, hga⟩ := List.mem_map.mp this
      exact far g hg a hga
    · intro x hx
      rcases List.mem_append.mp hx with hx | hx
      · obtain ⟨a, ha, hd⟩ := hA.near x hx
        exact ⟨a, List.mem_append_left _ ha, hd⟩
      · rw [List.mem_singleton] at hx
        exact ⟨c, by simp, Or.inr hx.symm⟩
  | @join cs G c hG k hk a ha near least ih =>
    obtain ⟨A, e, hA⟩ := ih
    refine ⟨A, ?_, hA.sub.trans (List.sublist_append_left _ _), hA.far, ?_⟩
    · rw [← e, List.map_set]
      refine List.ext_getElem? fun i => ?_
      rw [List.getElem?_set]
      split
      · next hi =>
        subst hi
        have hne : G[k] ≠ [] := by
          intro h0
          rw [h0] at ha
          cases ha
        rw [if_pos (by simpa using hk), List.getElem?_map, List.getElem?_eq_getElem hk, Option.map_some, List.getLast?_cons]
        rw [List.getLast?_eq_getLast_of_ne_nil hne]
        rfl
      · rfl
    · intro x hx
      rcases List.mem_append.mp hx with hx | hx
      · exact hA.near x hx
      · rw [List.mem_singleton] at hx
        subst hx
        have : some a ∈ A.map some := by
          rw [← e, ← show G[k].getLast? = some a from ha]
          exact List.mem_map_of_mem (List.getElem_mem hk)
        obtain ⟨a', ha', e'⟩ := List.mem_map.mp this
        cases e'
        exact ⟨a, ha', Or.inl near⟩

theorem leader_length {A : List β} (e : G.map List.getLast? = A.map some) : G.length = A.length := by
  simpa using congrArg List.length e

theorem leader_le (hG : Leader D h cs G) : G.length ≤ cs.length := by
  obtain ⟨A, e, hA⟩ := leader_heads hG
  rw [leader_length e]
  exact hA.sub.length_le

theorem leader_pos (hG : Leader D h cs G) (hcs : cs ≠ []) : 1 ≤ G.length := by
  obtain ⟨A, e, hA⟩ := leader_heads hG
  rw [leader_length e]
  obtain ⟨c, hc⟩ := List.exists_mem_of_ne_nil cs hcs
  obtain ⟨a, ha, _⟩ := hA.near c hc
  exact List.length_pos_of_mem ha

/-- At most one leader for each part of a cover by parts in which no two are farther apart than the radius. -/
theorem leader_packing (hG : Leader D h cs G) {N : ℕ} (part : β → ℕ) (hN : ∀ c ∈ cs, part c < N)
    (hp : ∀ c ∈ cs, ∀ c' ∈ cs, part c = part c' → D c c' ≤ h) : G.length ≤ N := by
  obtain ⟨A, e, hA⟩ := leader_heads hG
  rw [leader_length e]
  have hn : (A.map part).Nodup := by
    refine List.pairwise_map.mpr ((List.Pairwise.and_mem.mp hA.far).imp ?_)
    rintro a b ⟨ha, hb, hd⟩ e
    exact absurd (hp a (hA.sub.subset ha) b (hA.sub.subset hb) e) (not_le.mpr hd)
  have hs : A.map part ⊆ List.range N := by
    intro x hx
    obtain ⟨a, ha, rfl⟩ := List.mem_map.mp hx
    exact List.mem_range.mpr (hN a (hA.sub.subset ha))
  simpa using (hn.subperm hs).length_le

theorem leader_fine (hG : Leader D h cs G) (hD : ∀ a b, 0 ≤ D a b) (hh : h < 0) : G.length = cs.length := by
  induction hG with
  | nil => rfl
  | found _ _ ih => simp [ih]
  | join _ _ _ a _ near _ _ => exact absurd (near.trans_lt hh) (not_lt.mpr (hD _ _))

theorem leader_coarse (hG : Leader D h cs G) (hcs : cs ≠ []) (hD : ∀ a ∈ cs, ∀ b ∈ cs, D a b ≤ h) : G.length = 1 :=
  le_antisymm (leader_packing hG (N := 1) (fun _ => 0) (fun _ _ => by omega) fun a ha b hb _ => hD a ha b hb) (leader_pos hG hcs)

/-- With half the radius there are at least as many. -/
theorem leader_half {h' : ℝ} {G' : List (List β)} (hG : Leader D h cs G) (hG' : Leader D h' cs G') (hD : ∀ a b, 0 ≤ D a b) (h0 : ∀ a, D a a = 0)
    (hs : ∀ a ∈ cs, ∀ b ∈ cs, D a b = D b a) (ht : ∀ a ∈ cs, ∀ b ∈ cs, ∀ c ∈ cs, D a c ≤ D a b + D b c) (hh : 2 * h' ≤ h) : G.length ≤ G'.length := by
  classical
  rcases lt_or_ge h' 0 with hn | hp
  · rw [leader_fine hG' hD hn]
    exact leader_le hG
  obtain ⟨A, e, hA⟩ := leader_heads hG'
  rw [leader_length e]
  have key : ∀ c ∈ cs, ∃ i, ∃ hi : i < A.length, D A[i] c ≤ h' := by
    intro c hc
    obtain ⟨a, ha, hd⟩ := hA.near c hc
    obtain ⟨i, hi, rfl⟩ := List.getElem_of_mem ha
    refine ⟨i, hi, ?_⟩
    rcases hd with hd | hd
    · exact hd
    · rw [← hd, h0]
      exact hp
  let part : β → ℕ := fun c => if hc : c ∈ cs then (key c hc).choose else 0
  refine leader_packing hG part ?_ ?_
  · intro c hc
    simp only [part, dif_pos hc]
    exact (key c hc).choose_spec.1
  · intro c hc c' hc' e
    simp only [part, dif_pos hc, dif_pos hc'] at e
    obtain ⟨hi, d1⟩ := (key c hc).choose_spec
    obtain ⟨hi', d2⟩ := (key c' hc').choose_spec
    have e' : A[(key c hc).choose] = A[(key c' hc').choose] := by simp only [e]
    rw [← e'] at d2
    have hm := hA.sub.subset (List.getElem_mem hi)
    have := ht c hc _ hm c' hc'
    rw [hs c hc _ hm] at this
    linarith

/-- With a distance that tells apart exactly what `f` tells apart, radius 0 gives one group for each value of `f`. -/
theorem leader_zero {γ : Type} (f : β → γ) (hG : Leader D 0 cs G) (hf : ∀ a ∈ cs, ∀ b ∈ cs, D a b ≤ 0 ↔ f a = f b) :
    G.length = Set.ncard {x | ∃ c ∈ cs, x = f c} := by
  classical
  obtain ⟨A, e, hA⟩ := leader_heads hG
  rw [leader_length e]
  have hn : (A.map f).Nodup := by
    refine List.pairwise_map.mpr ((List.Pairwise.and_mem.mp hA.far).imp ?_)
    rintro a b ⟨ha, hb, hd⟩ e
    exact absurd ((hf a (hA.sub.subset ha) b (hA.sub.subset hb)).mpr e) (not_le.mpr hd)
  have hs : {x | ∃ c ∈ cs, x = f c} = ((A.map f).toFinset : Set γ) := by
    ext x
    simp only [Set.mem_ofPred_eq, List.coe_toFinset, List.mem_map]
    constructor
    · rintro ⟨c, hc, rfl⟩
      obtain ⟨a, ha, hd | rfl⟩ := hA.near c hc
      · exact ⟨a, ha, (hf a (hA.sub.subset ha) c hc).mp hd⟩
      · exact ⟨a, ha, rfl⟩
    · rintro ⟨a, ha, rfl⟩
      exact ⟨a, hA.sub.subset ha, rfl⟩
  rw [hs, Set.ncard_coe_finset, List.toFinset_card_of_nodup hn, List.length_map]

end Onex
