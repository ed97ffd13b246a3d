import Verif.Proofs.Envelope
import Mathlib.Tactic.IntervalCases

/-!
# C11: the Keogh envelope is the exact sliding maximum and minimum
-/

namespace Onex

open Spec

/-- C11: for every series of at least one real value and every band, computing the envelope runs
without undefined behaviour and terminates, whatever the fresh arrays contained, and yields the
sliding minimum and maximum. -/
theorem C11_envelope (ρ : Rounding) (junk : F ρ) (x : List ℝ) (hx : 1 ≤ x.length) (w : ℕ) :
    ∃ lo up : List ℝ, generateKeoghLU junk (fins x) (w : Int) = .ok (fins lo, fins up) ∧
      IsEnvelope x lo up w :=
  generateKeoghLU_spec junk x hx w

/-- C11 for any number type whose comparison is a linear order on the values present (infinities
included): every output cell is the value of the series at a position in the window which no other
position in the window exceeds (undercuts). -/
theorem C11_envelope_ordered {α β : Type} [DataT α] [LinearOrder β] (v : ℕ → β) (t : List α)
    (ht : ∀ i j (hi : i < t.length) (hj : j < t.length), DataT.lt t[i] t[j] = true ↔ v i < v j)
    (junk : α) (hx : 1 ≤ t.length) (w : ℕ) :
    ∃ lo up : List α, generateKeoghLU junk t (w : Int) = .ok (lo, up) ∧
      lo.length = t.length ∧ up.length = t.length ∧
      ∀ i, i < t.length →
        (∃ j, ∃ hj : j < t.length, i ≤ j + w ∧ j ≤ i + w ∧ lo[i]? = some t[j] ∧
          ∀ j', j' < t.length → i ≤ j' + w → j' ≤ i + w → v j ≤ v j') ∧
        (∃ j, ∃ hj : j < t.length, i ≤ j + w ∧ j ≤ i + w ∧ up[i]? = some t[j] ∧
          ∀ j', j' < t.length → i ≤ j' + w → j' ≤ i + w → v j' ≤ v j) := by
  unfold generateKeoghLU
  simp only
  have ew : min (w : Int) (len t - 1) = ((min w (t.length - 1) : ℕ) : Int) := by
    simp only [len]; omega
  rw [ew]
  obtain ⟨⟨l, u⟩, h1, ⟨hl1, hl2⟩, ⟨hu1, hu2⟩⟩ := lemire_spec (v := v)
    (fun i j hi hj => decides_of_iff (ht i j hi hj)) (r := min w (t.length - 1))
    (l0 := List.replicate t.length junk) (u0 := List.replicate t.length junk)
    (by omega) (by simp) (by simp)
  refine ⟨l, u, h1, hl1, hu1, ?_⟩
  intro i hi
  obtain ⟨j, hj, a1, a2, a3, a4⟩ := hl2 i hi hi
  obtain ⟨k, hk, b1, b2, b3, b4⟩ := hu2 i hi hi
  refine ⟨⟨j, hj, by omega, by omega, a3, ?_⟩, ⟨k, hk, by omega, by omega, b3, ?_⟩⟩
  · intro j' hj' c1 c2
    exact OrderDual.toDual_le_toDual.mp (a4 j' hj' (by omega) (by omega))
  · intro j' hj' c1 c2
    exact b4 j' hj' (by omega) (by omega)

/-- C11 for any number type and any values, not-a-number included: computing the envelope runs without
undefined behaviour and terminates, and every output cell is a value of the series at a position in
the window. -/
theorem C11_envelope_any {α : Type} [DataT α] (t : List α) (junk : α) (hx : 1 ≤ t.length) (w : ℕ) :
    ∃ lo up : List α, generateKeoghLU junk t (w : Int) = .ok (lo, up) ∧
      lo.length = t.length ∧ up.length = t.length ∧
      ∀ i, i < t.length →
        (∃ j, ∃ hj : j < t.length, i ≤ j + w ∧ j ≤ i + w ∧ lo[i]? = some t[j]) ∧
        (∃ j, ∃ hj : j < t.length, i ≤ j + w ∧ j ≤ i + w ∧ up[i]? = some t[j]) :=
  generateKeoghLU_any t junk hx w

/-- A case: not-a-number, against which every comparison fails, in the middle. -/
example : ∃ lo up : List (F Rounding.exact), generateKeoghLU F.nan [F.fin 1, F.nan, F.fin 3] 1 = .ok (lo, up) ∧
    lo.length = 3 ∧ up.length = 3 := by
  obtain ⟨lo, up, h1, h2, h3, _⟩ := C11_envelope_any [F.fin 1, F.nan, (F.fin 3 : F Rounding.exact)] F.nan (by simp) 1
  exact ⟨lo, up, h1, h2, h3⟩

/-- An envelope is determined by the series and the band, so C11 pins down the output. -/
theorem C11_envelope_unique {x lo up lo' up' : List ℝ} {w : ℕ} (h : IsEnvelope x lo up w)
    (h' : IsEnvelope x lo' up' w) : lo = lo' ∧ up = up' := by
  constructor
  · apply List.ext_getElem (h.lenLo.trans h'.lenLo.symm)
    intro i h1 h2
    have := (h.low i (by rw [← h.lenLo]; exact h1)).unique (h'.low i (by rw [← h.lenLo]; exact h1))
    simpa [h1, h2] using this
  · apply List.ext_getElem (h.lenUp.trans h'.lenUp.symm)
    intro i h1 h2
    have := (h.upp i (by rw [← h.lenUp]; exact h1)).unique (h'.upp i (by rw [← h.lenUp]; exact h1))
    simpa [h1, h2] using this

/-- A case with ties and a turn: `[2, 5, 5, 1]`, half-width 1. -/
example : IsEnvelope [2, 5, 5, 1] [2, 2, 1, 1] [5, 5, 5, 5] 1 := by
  have mem : ∀ i y, y ∈ window [2, 5, 5, 1] 1 i →
      (i = 0 → y = 2 ∨ y = 5) ∧ (i = 1 → y = 2 ∨ y = 5) ∧ (i = 2 → y = 5 ∨ y = 1) ∧
      (i = 3 → y = 5 ∨ y = 1) := by
    rintro i y ⟨j, h1, h2, h3⟩
    obtain ⟨h4, h5⟩ := List.getElem?_eq_some_iff.mp h1
    simp at h4
    interval_cases j <;> simp at h5 <;> subst h5 <;>
      refine ⟨?_, ?_, ?_, ?_⟩ <;> intro hi <;> first | omega | simp
  refine ⟨rfl, rfl, ?_, ?_⟩
  · intro i hi
    simp at hi
    interval_cases i
    · refine ⟨⟨0, by simp, by simp, by simp⟩, fun y hy => ?_⟩
      rcases (mem 0 y hy).1 rfl with h | h <;> rw [h] <;> norm_num
    · refine ⟨⟨0, by simp, by simp, by simp⟩, fun y hy => ?_⟩
      rcases (mem 1 y hy).2.1 rfl with h | h <;> rw [h] <;> norm_num
    · refine ⟨⟨3, by simp, by simp, by simp⟩, fun y hy => ?_⟩
      rcases (mem 2 y hy).2.2.1 rfl with h | h <;> rw [h] <;> norm_num
    · refine ⟨⟨3, by simp, by simp, by simp⟩, fun y hy => ?_⟩
      rcases (mem 3 y hy).2.2.2 rfl with h | h <;> rw [h] <;> norm_num
  · intro i hi
    simp at hi
    interval_cases i
    · refine ⟨⟨1, by simp, by simp, by simp⟩, fun y hy => ?_⟩
      rcases (mem 0 y hy).1 rfl with h | h <;> rw [h] <;> norm_num
    · refine ⟨⟨1, by simp, by simp, by simp⟩, fun y hy => ?_⟩
      rcases (mem 1 y hy).2.1 rfl with h | h <;> rw [h] <;> norm_num
    · refine ⟨⟨1, by simp, by simp, by simp⟩, fun y hy => ?_⟩
      rcases (mem 2 y hy).2.2.1 rfl with h | h <;> rw [h] <;> norm_num
    · refine ⟨⟨2, by simp, by simp, by simp⟩, fun y hy => ?_⟩
      rcases (mem 3 y hy).2.2.2 rfl with h | h <;> rw [h] <;> norm_num

end Onex
