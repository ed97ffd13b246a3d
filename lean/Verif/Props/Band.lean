import Verif.Proofs.Band

/-!
# C14: the warping band size
-/

namespace Onex

/-- C14: for `ratio ≥ 0` and length `n ≥ 1` the band is defined and lies in `0 .. n-1`; it does not
decrease with the length or the ratio, is 0 at ratio 0, and `n - 1` at ratios of at least 1 (lengths
being exactly representable).  Holds for every rounding of the product. -/
theorem C14_band_size (ρ : Rounding) (ratio : ℝ) (n : ℕ) (hn : 1 ≤ n) (hr : 0 ≤ ratio)
    (hrange : ρ.f (n * ratio) < 2147483648) :
    ∃ r : ℕ, calculateWarpingBandSize (α := F ρ) (F.fin ratio) (n : Int) = .ok (r : Int) ∧
      r ≤ n - 1 ∧
      (ratio = 0 → r = 0) ∧
      (1 ≤ ratio → ρ.f n = n → r = n - 1) ∧
      (∀ (ratio' : ℝ) (n' : ℕ), ratio ≤ ratio' → n ≤ n' → ρ.f (n' * ratio') < 2147483648 →
        ∃ r' : ℕ, calculateWarpingBandSize (α := F ρ) (F.fin ratio') (n' : Int) = .ok (r' : Int) ∧
          r ≤ r') := by
  refine ⟨bandOf ρ ratio n, band_ok ⟨hr, hrange⟩ hn, bandOf_le ratio n, ?_, ?_, ?_⟩
  · rintro rfl
    simp [bandOf, ρ.zero]
  · intro h1 h2
    apply min_eq_right
    have h3 : (n : ℝ) ≤ n * ratio := le_mul_of_one_le_right (Nat.cast_nonneg _) h1
    have h4 := ρ.mono h3
    rw [h2] at h4
    have := Nat.le_floor h4
    omega
  · intro ratio' n' h1 h2 h3
    refine ⟨bandOf ρ ratio' n', band_ok ⟨hr.trans h1, h3⟩ (hn.trans h2), ?_⟩
    unfold bandOf
    apply min_le_min
    · apply Nat.floor_le_floor
      apply ρ.mono
      exact mul_le_mul (by exact_mod_cast h2) h1 hr (Nat.cast_nonneg _)
    · omega

/-- In exact arithmetic the band is `⌊n * ratio⌋`, at most `n - 1`. -/
theorem C14_band_value (ratio : ℝ) (n : ℕ) (hn : 1 ≤ n) (hr : 0 ≤ ratio)
    (hrange : n * ratio < 2147483648) :
    calculateWarpingBandSize (α := F Rounding.exact) (F.fin ratio) (n : Int) =
      .ok (Spec.bandSize ratio n : Int) := by
  rw [band_ok ⟨hr, hrange⟩ hn, bandOf_exact]

/-- A case: ratio 0.3 and length 10 give band 3 (and a larger length or ratio never a smaller one). -/
example : calculateWarpingBandSize (α := F Rounding.exact) (F.fin 0.3) (10 : ℕ) = .ok 3 := by
  rw [C14_band_value 0.3 10 (by norm_num) (by norm_num) (by norm_num)]
  have h : ⌊(3 : ℝ)⌋₊ = 3 := Nat.floor_natCast 3
  norm_num [Spec.bandSize, h]

end Onex
