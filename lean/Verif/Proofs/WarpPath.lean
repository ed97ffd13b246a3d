import Verif.Proofs.Warped
import Verif.Spec.Warping

/-!
# The recurrence is the least path cost
-/

namespace Onex

open Spec

variable {r : ℕ}

/-- Cost of a path for arbitrary cell costs. -/
def gcost (e : ℕ → ℕ → ℝ) (p : List (ℕ × ℕ)) : ℝ := (p.map fun q => e q.1 q.2).sum

theorem gcost_append (e : ℕ → ℕ → ℝ) (p : List (ℕ × ℕ)) (q : ℕ × ℕ) :
    gcost e (p ++ [q]) = gcost e p + e q.1 q.2 := by
  simp [gcost]

theorem warpPath_snoc {i j i' j' : ℕ} {p : List (ℕ × ℕ)} (hp : IsWarpPath r i j p)
    (hs : IsStep (i, j) (i', j')) (hb : inB r i' j') :
    IsWarpPath r i' j' (p ++ [(i', j')]) := by
  refine ⟨?_, by simp, ?_, ?_⟩
  · have := hp.head
    cases p with
    | nil => simp at this
    | cons a l => simpa using this
  · rw [List.isChain_append]
    refine ⟨hp.steps, List.isChain_singleton _, ?_⟩
    intro x hx y hy
    rw [hp.last] at hx
    simp at hx hy
    subst hx
    subst hy
    exact hs
  · intro q hq
    rcases List.mem_append.mp hq with h | h
    · exact hp.band q h
    · simp at h
      subst h
      exact hb

/-- Some path attains the recurrence. -/
theorem dp_attained (e : ℕ → ℕ → ℝ) : ∀ i j : ℕ, inB r i j →
    ∃ p, IsWarpPath r i j p ∧ gcost e p = dp Rounding.exact e r i j
  | 0, 0, _ => ⟨[(0, 0)], ⟨rfl, rfl, List.isChain_singleton _, by simp⟩, by simp [gcost, dp]⟩
  | i + 1, 0, hb => by
    obtain ⟨p, h1, h2⟩ := dp_attained e i 0 (by unfold inB at *; omega)
    exact ⟨_, warpPath_snoc h1 (Or.inl rfl) hb, by simp [gcost_append, h2, dp]⟩
  | 0, j + 1, hb => by
    obtain ⟨p, h1, h2⟩ := dp_attained e 0 j (by unfold inB at *; omega)
    exact ⟨_, warpPath_snoc h1 (Or.inr (Or.inl rfl)) hb, by simp [gcost_append, h2, dp]⟩
  | i + 1, j + 1, hb => by
    rcases dp_succ_cases (ρ := Rounding.exact) (e := e) (r := r) i j with hc | ⟨hb', hc⟩ | ⟨hb', hc⟩
    · obtain ⟨p, h1, h2⟩ := dp_attained e i j (by unfold inB at *; omega)
      exact ⟨_, warpPath_snoc h1 (Or.inr (Or.inr rfl)) hb, by simp [gcost_append, h2, hc]⟩
    · obtain ⟨p, h1, h2⟩ := dp_attained e (i + 1) j hb'
      exact ⟨_, warpPath_snoc h1 (Or.inr (Or.inl rfl)) hb, by simp [gcost_append, h2, hc]⟩
    · obtain ⟨p, h1, h2⟩ := dp_attained e i (j + 1) hb'
      exact ⟨_, warpPath_snoc h1 (Or.inl rfl) hb, by simp [gcost_append, h2, hc]⟩

/-- Removing the last cell of a path. -/
theorem warpPath_cases {i j : ℕ} {p : List (ℕ × ℕ)} (hp : IsWarpPath r i j p) :
    (p = [(0, 0)] ∧ i = 0 ∧ j = 0) ∨
    ∃ q i' j', p = q ++ [(i, j)] ∧ IsWarpPath r i' j' q ∧ IsStep (i', j') (i, j) := by
  rcases List.eq_nil_or_concat p with rfl | ⟨q, x, hqx⟩
  · have := hp.head
    simp at this
  · rw [List.concat_eq_append] at hqx
    subst hqx
    have hl := hp.last
    simp at hl
    subst hl
    have hsteps := hp.steps
    rw [List.isChain_append] at hsteps
    obtain ⟨hs1, _, hs2⟩ := hsteps
    rcases List.eq_nil_or_concat q with rfl | ⟨q', y, hqy⟩
    · left
      have := hp.head
      simp at this
      simp [this]
    · right
      rw [List.concat_eq_append] at hqy
      subst hqy
      refine ⟨q' ++ [y], y.1, y.2, by simp, ⟨?_, by simp, hs1, ?_⟩, ?_⟩
      · have := hp.head
        cases q' <;> simpa using this
      · intro z hz
        exact hp.band z (List.mem_append_left _ hz)
      · exact hs2 y (by simp) (i, j) (by simp)

/-- No path is cheaper than the recurrence. -/
theorem dp_le_path (e : ℕ → ℕ → ℝ) (p : List (ℕ × ℕ)) : ∀ i j, IsWarpPath r i j p →
    dp Rounding.exact e r i j ≤ gcost e p := by
  induction hn : p.length generalizing p with
  | zero =>
    intro i j hp
    have := hp.head
    rw [List.eq_nil_of_length_eq_zero hn] at this
    simp at this
  | succ n ih =>
    intro i j hp
    rcases warpPath_cases hp with ⟨rfl, rfl, rfl⟩ | ⟨q, i', j', rfl, hq, hs⟩
    · simp [gcost, dp]
    · have hlen : q.length = n := by simpa using hn
      have h1 := ih q hlen i' j' hq
      rw [gcost_append]
      have hb' : inB r i' j' := hq.band (i', j') (List.mem_of_getLast? hq.last)
      rcases hs with h | h | h
      · simp only [Prod.mk.injEq] at h
        obtain ⟨rfl, rfl⟩ := h
        cases j with
        | zero =>
          simp only [dp, Rounding.exact_f]
          linarith
        | succ j =>
          have := dp_le_up (ρ := Rounding.exact) (e := e) i' j hb'
          simp only [Rounding.exact_f] at this ⊢
          linarith
      · simp only [Prod.mk.injEq] at h
        obtain ⟨rfl, rfl⟩ := h
        cases i with
        | zero =>
          simp only [dp, Rounding.exact_f]
          linarith
        | succ i =>
          have := dp_le_left (ρ := Rounding.exact) (e := e) i j' hb'
          simp only [Rounding.exact_f] at this ⊢
          linarith
      · simp only [Prod.mk.injEq] at h
        obtain ⟨rfl, rfl⟩ := h
        have := dp_le_diag (ρ := Rounding.exact) (e := e) (r := r) i' j'
        simp only [Rounding.exact_f] at this ⊢
        linarith

theorem gcost_ecost (a b : List ℝ) (p : List (ℕ × ℕ)) :
    gcost (ecost Rounding.exact a b) p = pathCost a b p := by
  simp [gcost, pathCost, ecost]

/-- In exact arithmetic the recurrence is the optimum over warping paths. -/
theorem dp_isLeast (a b : List ℝ) (hb : inB r (a.length - 1) (b.length - 1)) :
    IsLeast (warpCosts r a b)
      (dp Rounding.exact (ecost Rounding.exact a b) r (a.length - 1) (b.length - 1)) := by
  constructor
  · obtain ⟨p, h1, h2⟩ := dp_attained (r := r) (ecost Rounding.exact a b) _ _ hb
    exact ⟨p, h1, by rw [← gcost_ecost, h2]⟩
  · rintro c ⟨p, h1, rfl⟩
    rw [← gcost_ecost]
    exact dp_le_path _ p _ _ h1

theorem warpCosts_nonempty (a b : List ℝ) :
    (warpCosts r a b).Nonempty ↔ inB r (a.length - 1) (b.length - 1) := by
  constructor
  · rintro ⟨c, p, hp, _⟩
    exact hp.band _ (List.mem_of_getLast? hp.last)
  · intro h
    exact ⟨_, (dp_isLeast a b h).1⟩

end Onex
