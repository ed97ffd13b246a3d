import Verif.Spec.Binary
import Verif.Spec.RelErr

/-!
# Rounding to binary floating point

`Rounding.binary p r` keeps `p + 1` significant bits of the magnitude and rounds the rest by `r`; with `r` rounding to the
nearest integer, ties to even, and `p = 52` this is how `double` rounds, but for overflow and underflow.
-/

namespace Onex
open Spec

/-- Rounding of the reals to the integers. -/
structure IntRound where
  r : ℝ → ℤ
  mono : Monotone r
  int : ∀ z : ℤ, r z = z

/-- Truncation. -/
noncomputable def IntRound.down : IntRound where
  r := Int.floor
  mono := Int.floor_mono
  int := Int.floor_intCast

/-- To the nearest integer, and to the even one of two nearest. -/
noncomputable def evenRound (x : ℝ) : ℤ :=
  if Int.fract x < 1 / 2 then ⌊x⌋ else if 1 / 2 < Int.fract x then ⌊x⌋ + 1 else if Even ⌊x⌋ then ⌊x⌋ else ⌊x⌋ + 1

theorem evenRound_bounds (x : ℝ) : ⌊x⌋ ≤ evenRound x ∧ evenRound x ≤ ⌊x⌋ + 1 := by
  unfold evenRound
  split
  · omega
  · split
    · omega
    · split <;> omega

theorem evenRound_mono : Monotone evenRound := by
  intro x y h
  rcases (Int.floor_mono h).lt_or_eq with hl | he
  · have := (evenRound_bounds x).2
    have := (evenRound_bounds y).1
    omega
  · have hf : Int.fract x ≤ Int.fract y := by
      unfold Int.fract
      rw [he]
      linarith
    unfold evenRound
    rw [he]
    rcases lt_trichotomy (Int.fract x) (1 / 2) with h1 | h1 | h1 <;>
      rcases lt_trichotomy (Int.fract y) (1 / 2) with h2 | h2 | h2 <;> first
        | (exfalso; linarith)
        | (simp only [h1, h2, if_true, lt_irrefl, if_false, not_lt_of_gt]; omega)

theorem evenRound_err (x : ℝ) : |(evenRound x : ℝ) - x| ≤ 1 / 2 := by
  have h := Int.floor_add_fract x
  have h0 := Int.fract_nonneg x
  have h1 := Int.fract_lt_one x
  rw [abs_le]
  unfold evenRound
  split
  · constructor <;> linarith
  · split
    · push_cast; constructor <;> linarith
    · split
      · constructor <;> linarith
      · push_cast; constructor <;> linarith

noncomputable def IntRound.even : IntRound where
  r := evenRound
  mono := evenRound_mono
  int z := by unfold evenRound; rw [if_pos (by simp), Int.floor_intCast]

section
variable (p : ℕ) (R : IntRound)

/-- The unit in the last place of `x`. -/
noncomputable def ulp (x : ℝ) : ℝ := (2 : ℝ) ^ (Int.log 2 x - p)

theorem ulp_pos (x : ℝ) : 0 < ulp p x := zpow_pos (by norm_num) _

/-- Rounding of a magnitude. -/
noncomputable def binMag (x : ℝ) : ℝ := R.r (x / ulp p x) * ulp p x

theorem log_pow_le {x : ℝ} (h : 0 < x) : (2 : ℝ) ^ Int.log 2 x ≤ x := by
  have := Int.zpow_log_le_self (R := ℝ) (b := 2) (by norm_num) h
  exact_mod_cast this

theorem lt_log_pow (x : ℝ) : x < (2 : ℝ) ^ (Int.log 2 x + 1) := by
  have := Int.lt_zpow_succ_log_self (R := ℝ) (b := 2) (by norm_num) x
  exact_mod_cast this

theorem pow_div_ulp (x : ℝ) : (2 : ℝ) ^ Int.log 2 x = ((2 ^ p : ℤ) : ℝ) * ulp p x := by
  unfold ulp
  push_cast
  rw [zpow_sub₀ (by norm_num), zpow_natCast]
  field_simp

theorem pow_succ_div_ulp (x : ℝ) : (2 : ℝ) ^ (Int.log 2 x + 1) = ((2 ^ (p + 1) : ℤ) : ℝ) * ulp p x := by
  rw [zpow_add₀ (by norm_num), zpow_one, pow_div_ulp p x]
  push_cast
  ring

/-- The integer that the magnitude is rounded to. -/
theorem binMag_int {x : ℝ} (h : 0 < x) : 2 ^ p ≤ R.r (x / ulp p x) ∧ R.r (x / ulp p x) ≤ 2 ^ (p + 1) := by
  have hs := ulp_pos p x
  constructor
  · rw [← R.int (2 ^ p)]
    apply R.mono
    rw [le_div_iff₀ hs, ← pow_div_ulp]
    exact log_pow_le h
  · rw [← R.int (2 ^ (p + 1))]
    apply R.mono
    rw [div_le_iff₀ hs, ← pow_succ_div_ulp]
    exact (lt_log_pow x).le

theorem binMag_ge {x : ℝ} (h : 0 < x) : (2 : ℝ) ^ Int.log 2 x ≤ binMag p R x := by
  rw [pow_div_ulp p x]
  unfold binMag
  exact mul_le_mul_of_nonneg_right (by exact_mod_cast (binMag_int p R h).1) (ulp_pos p x).le

theorem binMag_le {x : ℝ} (h : 0 < x) : binMag p R x ≤ (2 : ℝ) ^ (Int.log 2 x + 1) := by
  rw [pow_succ_div_ulp p x]
  unfold binMag
  exact mul_le_mul_of_nonneg_right (by exact_mod_cast (binMag_int p R h).2) (ulp_pos p x).le

theorem binMag_pos {x : ℝ} (h : 0 < x) : 0 < binMag p R x :=
  lt_of_lt_of_le (zpow_pos (by norm_num) _) (binMag_ge p R h)

@[simp] theorem binMag_zero : binMag p R 0 = 0 := by
  unfold binMag
  have := R.int 0
  simp only [Int.cast_zero] at this
  simp [this]

theorem binMag_nonneg {x : ℝ} (h : 0 ≤ x) : 0 ≤ binMag p R x := by
  rcases h.eq_or_lt with h | h
  · rw [← h]; simp
  · exact (binMag_pos p R h).le

theorem binMag_mono {x y : ℝ} (hx : 0 ≤ x) (h : x ≤ y) : binMag p R x ≤ binMag p R y := by
  rcases hx.eq_or_lt with hx | hx
  · rw [← hx, binMag_zero]
    exact binMag_nonneg p R (hx ▸ h)
  · have hy := hx.trans_le h
    rcases (Int.log_mono_right (b := 2) hx h).lt_or_eq with hl | he
    · exact (binMag_le p R hx).trans ((zpow_le_zpow_right₀ (by norm_num) (by omega)).trans (binMag_ge p R hy))
    · unfold binMag
      rw [show ulp p x = ulp p y by unfold ulp; rw [he]]
      exact mul_le_mul_of_nonneg_right (by exact_mod_cast R.mono (div_le_div_of_nonneg_right h (ulp_pos p y).le)) (ulp_pos p y).le

/-- Multiples of the unit in the last place are kept. -/
theorem binMag_keep {x : ℝ} (z : ℤ) (h : x = z * ulp p x) : binMag p R x = x := by
  have hs := (ulp_pos p x).ne'
  unfold binMag
  rw [show x / ulp p x = z by rw [div_eq_iff hs]; exact h, R.int]
  exact h.symm

theorem log_two_zpow (z : ℤ) : Int.log 2 ((2 : ℝ) ^ z) = z := by
  have := Int.log_zpow (R := ℝ) (b := 2) (by norm_num) z
  exact_mod_cast this

theorem binMag_idem {x : ℝ} (h : 0 ≤ x) : binMag p R (binMag p R x) = binMag p R x := by
  rcases h.eq_or_lt with h | h
  · rw [← h]; simp
  rcases (binMag_le p R h).eq_or_lt with he | hl
  · rw [he]
    refine binMag_keep p R (2 ^ p) ?_
    rw [← pow_div_ulp, log_two_zpow]
  · have h1 := binMag_ge p R h
    have e : Int.log 2 (binMag p R x) = Int.log 2 x := by
      apply le_antisymm
      · have := (Int.lt_zpow_iff_log_lt (R := ℝ) (b := 2) (by norm_num) (binMag_pos p R h)).mp
          (show binMag p R x < ((2 : ℕ) : ℝ) ^ (Int.log 2 x + 1) by exact_mod_cast hl)
        omega
      · exact (Int.zpow_le_iff_le_log (R := ℝ) (b := 2) (by norm_num) (binMag_pos p R h)).mp (by exact_mod_cast h1)
    refine binMag_keep p R (R.r (x / ulp p x)) ?_
    conv_rhs => rw [show ulp p (binMag p R x) = ulp p x by unfold ulp; rw [e]]
    rfl

theorem binMag_err {δ : ℝ} (hδ : ∀ x, |(R.r x : ℝ) - x| ≤ δ) {x : ℝ} (h : 0 ≤ x) : |binMag p R x - x| ≤ δ / 2 ^ p * x := by
  rcases h.eq_or_lt with h | h
  · rw [← h]; simp
  have hs := ulp_pos p x
  have hd : 0 ≤ δ := (abs_nonneg _).trans (hδ 0)
  have e : binMag p R x - x = ((R.r (x / ulp p x) : ℝ) - x / ulp p x) * ulp p x := by
    unfold binMag; field_simp
  rw [e, abs_mul, abs_of_pos hs]
  have h2 : ulp p x ≤ x / 2 ^ p := by
    rw [le_div_iff₀ (by positivity), mul_comm]
    have := log_pow_le h
    rw [pow_div_ulp p x] at this
    exact_mod_cast this
  calc _ ≤ δ * (x / 2 ^ p) := mul_le_mul (hδ _) h2 hs.le hd
    _ = _ := by ring

open Classical in
/-- Rounding to `p + 1` bits. -/
noncomputable def Rounding.binary : Rounding where
  f x := if 0 ≤ x then binMag p R x else - binMag p R (-x)
  mono := by
    intro x y h
    dsimp only
    split
    · rw [if_pos (by linarith)]
      exact binMag_mono p R ‹_› h
    · have hx : x < 0 := by simpa using ‹¬ 0 ≤ x›
      split
      · have := binMag_nonneg p R (x := -x) (by linarith)
        have := binMag_nonneg p R (x := y) ‹_›
        linarith
      · have hy : y < 0 := by simpa using ‹¬ 0 ≤ y›
        exact neg_le_neg (binMag_mono p R (by linarith) (by linarith))
  odd := by
    intro x
    rcases lt_trichotomy x 0 with h | h | h
    · rw [if_pos (by linarith), if_neg (by linarith)]; ring
    · subst h; simp
    · rw [if_neg (by linarith), if_pos h.le]; simp
  idem := by
    intro x
    by_cases h : 0 ≤ x
    · simp only [if_pos h]
      rw [if_pos (binMag_nonneg p R h), binMag_idem p R h]
    · have hx : 0 < -x := by simpa using h
      simp only [if_neg h]
      rw [if_neg (by have := binMag_pos p R hx; linarith), neg_neg, binMag_idem p R hx.le]

theorem binary_nonneg {x : ℝ} (h : 0 ≤ x) : (Rounding.binary p R).f x = binMag p R x := if_pos h

theorem binary_abs (x : ℝ) : |(Rounding.binary p R).f x - x| = abs (binMag p R |x| - |x|) := by
  rcases le_total 0 x with h | h
  · rw [binary_nonneg p R h, abs_of_nonneg h]
  · have : (Rounding.binary p R).f x = - binMag p R (-x) := by
      rw [← binary_nonneg p R (by linarith), Rounding.odd, neg_neg]
    rw [this, abs_of_nonpos h, ← abs_neg]
    congr 1; ring

theorem binary_err {δ : ℝ} (hδ : ∀ x, |(R.r x : ℝ) - x| ≤ δ) (x : ℝ) :
    |(Rounding.binary p R).f x - x| ≤ δ / 2 ^ p * |x| := by
  rw [binary_abs]
  exact binMag_err p R hδ (abs_nonneg x)

theorem binary_hasBits (x : ℝ) : HasBits p ((Rounding.binary p R).f x) := by
  have key : ∀ y : ℝ, 0 < y → HasBits p (binMag p R y) := by
    intro y h
    refine ⟨R.r (y / ulp p y), Int.log 2 y - p, ?_, rfl⟩
    rw [abs_of_nonneg (le_trans (by positivity) (binMag_int p R h).1)]
    exact (binMag_int p R h).2
  rcases lt_trichotomy x 0 with h | h | h
  · obtain ⟨m, e, h1, h2⟩ := key (-x) (by linarith)
    refine ⟨-m, e, by rwa [abs_neg], ?_⟩
    rw [show x = - -x by ring, Rounding.odd, binary_nonneg p R (by linarith), h2]
    push_cast; ring
  · subst h
    exact ⟨0, 0, by simp, by simp [Rounding.zero]⟩
  · rw [binary_nonneg p R h.le]
    exact key x h

/-- Numbers with few enough bits are kept. -/
theorem binary_keep {y : ℝ} (h : HasBits p y) : (Rounding.binary p R).f y = y := by
  have key : ∀ (m e : ℤ), 0 < m → m ≤ 2 ^ (p + 1) → binMag p R (m * (2 : ℝ) ^ e) = m * (2 : ℝ) ^ e := by
    intro m e h0 h1
    have hm : (0 : ℝ) < m := by exact_mod_cast h0
    have h2 : (0 : ℝ) < (2 : ℝ) ^ e := zpow_pos (by norm_num) _
    rcases h1.lt_or_eq with h1 | h1
    · set y := (m : ℝ) * (2 : ℝ) ^ e with hy
      have hpos : 0 < y := mul_pos hm h2
      have hlog : Int.log 2 y - p ≤ e := by
        have : y < ((2 : ℕ) : ℝ) ^ (e + p + 1 : ℤ) := by
          rw [hy, add_assoc, zpow_add₀ (by norm_num), mul_comm]
          refine mul_lt_mul_of_pos_left ?_ (by exact_mod_cast h2)
          have : (m : ℝ) < 2 ^ (p + 1) := by exact_mod_cast h1
          exact_mod_cast this
        have := (Int.lt_zpow_iff_log_lt (R := ℝ) (b := 2) (by norm_num) hpos).mp this
        omega
      obtain ⟨k, hk⟩ := Int.le.dest hlog
      refine binMag_keep p R (m * 2 ^ k) ?_
      rw [show ulp p y = (2 : ℝ) ^ (Int.log 2 y - p) from rfl]
      conv_lhs => rw [hy, ← hk, zpow_add₀ (by norm_num), zpow_natCast]
      push_cast
      ring
    · have e1 : (m : ℝ) * (2 : ℝ) ^ e = (2 : ℝ) ^ ((p : ℤ) + 1 + e) := by
        rw [h1, zpow_add₀ (by norm_num)]
        push_cast
        congr 1
      rw [e1]
      refine binMag_keep p R (2 ^ p) ?_
      rw [← pow_div_ulp, log_two_zpow]
  obtain ⟨m, e, h1, rfl⟩ := h
  rcases lt_trichotomy m 0 with h | h | h
  · have hk := key (-m) e (by omega) (by rw [abs_of_neg h] at h1; exact h1)
    have h2 : (0 : ℝ) < (2 : ℝ) ^ e := zpow_pos (by norm_num) _
    have hm : (m : ℝ) < 0 := by exact_mod_cast h
    push_cast at hk
    rw [show (m : ℝ) * (2 : ℝ) ^ e = - (-m * (2 : ℝ) ^ e) by ring, Rounding.odd, binary_nonneg, hk]
    exact mul_nonneg (by linarith) h2.le
  · subst h; simp [Rounding.zero]
  · rw [binary_nonneg, key m e h (by rw [abs_of_pos h] at h1; exact h1)]
    exact mul_nonneg (by exact_mod_cast h.le) (zpow_pos (by norm_num) _).le

end

noncomputable def IntRound.up : IntRound where
  r := Int.ceil
  mono := Int.ceil_mono
  int := Int.ceil_intCast

theorem evenRound_floor (x : ℝ) : |(evenRound x : ℝ) - x| ≤ x - ⌊x⌋ := by
  have h := Int.floor_add_fract x
  have h0 := Int.fract_nonneg x
  have h1 := Int.fract_lt_one x
  rw [abs_le]
  unfold evenRound
  split
  · constructor <;> linarith
  · split
    · push_cast; constructor <;> linarith
    · split
      · constructor <;> linarith
      · push_cast; constructor <;> linarith

theorem evenRound_ceil (x : ℝ) : |(evenRound x : ℝ) - x| ≤ ⌈x⌉ - x := by
  rcases eq_or_ne (Int.fract x) 0 with hz | hz
  · have e : ((⌊x⌋ : ℤ) : ℝ) = x := by have := Int.floor_add_fract x; linarith
    rw [show evenRound x = ⌊x⌋ by unfold evenRound; rw [if_pos (by rw [hz]; norm_num)], e]
    simp [Int.le_ceil]
  have e : ((⌈x⌉ : ℤ) : ℝ) = ⌊x⌋ + 1 := by
    have h1 := Int.ceil_eq_add_one_sub_fract hz
    have := Int.floor_add_fract x
    linarith
  rw [e]
  have h := Int.floor_add_fract x
  have h0 := Int.fract_nonneg x
  have h1 := Int.fract_lt_one x
  rw [abs_le]
  unfold evenRound
  split
  · constructor <;> linarith
  · split
    · push_cast; constructor <;> linarith
    · split
      · constructor <;> linarith
      · push_cast; constructor <;> linarith

theorem Spec.HasBits.neg {p : ℕ} {y : ℝ} (h : HasBits p y) : HasBits p (-y) := by
  obtain ⟨m, e, h1, rfl⟩ := h
  exact ⟨-m, e, by rwa [abs_neg], by push_cast; ring⟩

theorem Spec.HasBits.zero (p : ℕ) : HasBits p 0 := ⟨0, 0, by simp, by simp⟩

/-- Rounding to nearest finds the nearest number with so many bits. -/
theorem even_nearest (p : ℕ) (x y : ℝ) (hy : HasBits p y) : |(Rounding.binary p IntRound.even).f x - x| ≤ |y - x| := by
  have key : ∀ x y : ℝ, 0 ≤ x → HasBits p y → |(Rounding.binary p IntRound.even).f x - x| ≤ |y - x| := by
    intro x y hx hy
    have hs := ulp_pos p x
    have sc : ∀ R : IntRound, binMag p R x - x = ((R.r (x / ulp p x) : ℝ) - x / ulp p x) * ulp p x := by
      intro R; unfold binMag; field_simp
    rw [binary_nonneg p _ hx, sc, abs_mul, abs_of_pos hs]
    rcases le_total y x with h | h
    · have h1 := (Rounding.binary p IntRound.down).mono h
      rw [binary_keep p _ hy, binary_nonneg p _ hx] at h1
      rw [abs_sub_comm y x, abs_of_nonneg (show 0 ≤ x - y by linarith)]
      have h2 := mul_le_mul_of_nonneg_right (evenRound_floor (x / ulp p x)) hs.le
      have h3 := sc IntRound.down
      refine h2.trans ?_
      have e : (x / ulp p x - ⌊x / ulp p x⌋) * ulp p x = x - binMag p IntRound.down x := by
        rw [← neg_sub, ← neg_sub (binMag p IntRound.down x), h3, neg_mul]; rfl
      rw [e]; linarith
    · have h1 := (Rounding.binary p IntRound.up).mono h
      rw [binary_keep p _ hy, binary_nonneg p _ hx] at h1
      rw [abs_of_nonneg (show 0 ≤ y - x by linarith)]
      have h2 := mul_le_mul_of_nonneg_right (evenRound_ceil (x / ulp p x)) hs.le
      refine h2.trans ?_
      have e : ((⌈x / ulp p x⌉ : ℝ) - x / ulp p x) * ulp p x = binMag p IntRound.up x - x := by
        rw [sc IntRound.up]; rfl
      rw [e]; linarith
  rcases le_total 0 x with h | h
  · exact key x y h hy
  · have := key (-x) (-y) (by linarith) hy.neg
    rw [Rounding.odd, ← abs_neg, ← abs_neg (-y - -x)] at this
    rw [show -(-(Rounding.binary p IntRound.even).f x - -x) = (Rounding.binary p IntRound.even).f x - x by ring,
      show -(-y - -x) = y - x by ring] at this
    exact this

/-- How `double` rounds (53 bits, to nearest, ties to even), but for overflow and underflow. -/
noncomputable def Rounding.double : Rounding := Rounding.binary 52 IntRound.even

theorem relErr_double : RelErr Rounding.double (1 / 2 ^ 53) where
  nonneg := by positivity
  lt_one := by norm_num
  err x := by
    have := binary_err 52 IntRound.even evenRound_err x
    refine this.trans (le_of_eq ?_)
    norm_num

theorem relErr_exact : RelErr Rounding.exact 0 where
  nonneg := le_rfl
  lt_one := by norm_num
  err x := by simp

end Onex
