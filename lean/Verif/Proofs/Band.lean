import Verif.Proofs.Warped
import Verif.Spec.Warping

/-!
# The warping band
-/

namespace Onex

variable {ρ : Rounding}

/-- The band the code uses for a ratio and the longer length. -/
noncomputable def bandOf (ρ : Rounding) (ratio : ℝ) (n : ℕ) : ℕ :=
  min ⌊ρ.f ((n : ℝ) * ratio)⌋₊ (n - 1)

/-- A ratio for which converting the band to `int` is defined. -/
structure RatioOk (ρ : Rounding) (ratio : ℝ) (n : ℕ) : Prop where
  nonneg : 0 ≤ ratio
  range : ρ.f ((n : ℝ) * ratio) < 2147483648

theorem bandOf_exact (ratio : ℝ) (n : ℕ) : bandOf Rounding.exact ratio n = Spec.bandSize ratio n := rfl

theorem band_ok {ratio : ℝ} {n : ℕ} (h : RatioOk ρ ratio n) (hn : 1 ≤ n) :
    calculateWarpingBandSize (α := F ρ) (F.fin ratio) (n : Int) = .ok (bandOf ρ ratio n : Int) := by
  unfold calculateWarpingBandSize
  have hx : 0 ≤ ρ.f ((n : ℝ) * ratio) := ρ.nonneg (mul_nonneg (Nat.cast_nonneg _) h.nonneg)
  have h0 : 0 ≤ ⌊ρ.f ((n : ℝ) * ratio)⌋ := Int.floor_nonneg.mpr hx
  have h1 : ⌊ρ.f ((n : ℝ) * ratio)⌋ < 2147483648 := by
    rw [Int.floor_lt]
    exact_mod_cast h.range
  have hr : inIntRange ⌊ρ.f ((n : ℝ) * ratio)⌋ = true := by
    simp only [inIntRange, decide_eq_true_eq]
    omega
  have hfl : DataT.floorInt (α := F ρ) (DataT.mul (DataT.ofInt (n : Int)) (F.fin ratio)) =
      some ⌊ρ.f ((n : ℝ) * ratio)⌋ := by
    show (if inIntRange ⌊ρ.f (((n : Int) : ℝ) * ratio)⌋ = true then _ else _) = _
    rw [Int.cast_natCast, if_pos hr]
  rw [hfl]
  simp only
  congr 1
  unfold bandOf
  rw [← Int.natCast_floor_eq_floor hx]
  omega

theorem bandOf_le (ratio : ℝ) (n : ℕ) : bandOf ρ ratio n ≤ n - 1 := min_le_right _ _

theorem max_len (a b : List ℝ) : Max.max (len a) (len b) = ((max a.length b.length : ℕ) : Int) := by
  simp [len]

end Onex
