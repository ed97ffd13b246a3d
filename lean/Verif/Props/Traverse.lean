import Verif.Proofs.TraverseOrder
import Verif.Spec.GroupSet

/-!
# Property C32: the lengths a search visits
-/

namespace Onex
open DataT Spec

/-- The slack `n - band n` never shrinks. -/
theorem bandSize_slack {ratio : ℝ} (h0 : 0 ≤ ratio) {n m : Nat} (hnm : n ≤ m) :
    n + bandSize ratio m ≤ m + bandSize ratio n := by
  have key : ratio ≤ 1 → ⌊(m : ℝ) * ratio⌋₊ ≤ ⌊(n : ℝ) * ratio⌋₊ + (m - n) := by
    intro h1
    have e : ((m - n : Nat) : ℝ) = (m : ℝ) - n := by push_cast [hnm]; rfl
    have hd : (0 : ℝ) ≤ (m : ℝ) - n := by rw [← e]; positivity
    rw [← Nat.floor_add_natCast (by positivity)]
    refine Nat.floor_le_floor ?_
    rw [e]
    nlinarith
  have key2 : 1 < ratio → n ≤ ⌊(n : ℝ) * ratio⌋₊ := by
    intro h1
    refine Nat.le_floor ?_
    have : (0 : ℝ) ≤ n := Nat.cast_nonneg n
    nlinarith
  unfold bandSize
  rcases le_or_gt ratio 1 with h | h
  · have := key h
    omega
  · have := key2 h
    omega

theorem fits_iff_finite {ratio : ℝ} {q L : Nat} (hq : 2 ≤ q) (hL : 2 ≤ L)
    (hr : RatioOk Rounding.exact ratio (max q L)) (a b : List ℝ) (ha : a.length = q) (hb : b.length = L) :
    Fits Rounding.exact ratio q L ↔ warped ratio a b ≠ F.pinf := by
  rw [← wrd_eq_warped ratio a b (by rw [ha, hb]; exact hr) (by omega) (by omega), Ne,
    wrd_finite_iff _ _ _ (by omega) (by omega), ha, hb]
  unfold Fits
  constructor
  · intro h h'
    exact h' ⟨h.2, h.1⟩
  · intro h
    have := not_not.mp h
    exact ⟨this.2, this.1⟩

/-- C32 in exact arithmetic: the order exists, starts with the query length, has no repetitions, and
contains exactly the lengths from 2 to `N` at which some series has a finite warped distance
to some series of the query's length (equivalently, all of them do). -/
theorem C32_traverse_order (ratio : ℝ) (q N : Nat) (hq : 2 ≤ q) (hqN : q ≤ N) (h0 : 0 ≤ ratio)
    (hN : (N : ℝ) * ratio < 2147483648) :
    ∃ order : List Int, generateTraverseOrder (F.fin ratio : F Rounding.exact) q N = .ok order ∧
      order.head? = some (q : Int) ∧ order.Nodup ∧
      (∀ L : Int, L ∈ order ↔ (2 ≤ L ∧ L ≤ N) ∧
        ∃ a b : List ℝ, a.length = q ∧ (b.length : Int) = L ∧ warped ratio a b ≠ F.pinf) ∧
      ∀ a b : List ℝ, a.length = q → (b.length : Int) ∈ order → warped ratio a b ≠ F.pinf := by
  have hfit : ∀ l ≤ N, RatioOk Rounding.exact ratio l := by
    intro l hl
    exact ⟨h0, lt_of_le_of_lt (mul_le_mul_of_nonneg_right (by exact_mod_cast hl) h0) hN⟩
  obtain ⟨order, e1, ⟨t, e2⟩, e3, low, high, b1, b2, b3, b4, m1, m2, m3, m4⟩ :=
    traverse_spec (ρ := Rounding.exact) hfit hq hqN
  refine ⟨order, e1, by rw [e2]; rfl, e3, ?_, ?_⟩
  · intro L
    constructor
    · intro hL
      have hb := (m1 L).mp hL
      refine ⟨by omega, List.replicate q 0, List.replicate L.toNat 0, by simp, by simp; omega, ?_⟩
      exact (fits_iff_finite hq (by omega) (hfit _ (by omega)) _ _ (by simp) (by simp)).mp (m2 L hL)
    · rintro ⟨hb, a, b, ha, hb', hW⟩
      have hf : Fits Rounding.exact ratio q b.length :=
        (fits_iff_finite hq (by omega) (hfit _ (by omega)) a b ha rfl).mpr hW
      rw [m1]
      constructor
      · by_contra hlt
        rcases m3 with h | h
        · omega
        · apply h
          unfold Fits at hf ⊢
          have h1 : max q b.length = q := by omega
          have h2 : max q low = q := by omega
          rw [h1] at hf
          rw [h2]
          omega
      · by_contra hlt
        rcases m4 with h | h
        · omega
        · apply h
          unfold Fits at hf ⊢
          have h1 : max q b.length = b.length := by omega
          have h2 : max q high = high := by omega
          rw [h1, bandOf_exact] at hf
          rw [h2, bandOf_exact]
          have := bandSize_slack h0 (n := high) (m := b.length) (by omega)
          omega
  · intro a b ha hb
    have := (m1 _).mp hb
    refine (fits_iff_finite hq (by omega) (hfit _ (by omega)) a b ha rfl).mp ?_
    simpa using m2 _ hb

/-- C32, for every number type: lengths are visited in the order of their distance from the length of the query, the shorter of two
at the same distance first. With the theorem above this determines the order. -/
theorem C32_nearest_first {α : Type} [DataT α] (ratio : α) (q N : Int) (order : List Int)
    (h : generateTraverseOrder ratio q N = .ok order) : order.Pairwise (Nearer q) := traverse_near h

/-- C32 for every rounding, without completeness: rounding can make the band of a longer length jump by two, so that a
length after the first rejected one may fit. -/
theorem C32_traverse_rounded (ρ : Rounding) (ratio : ℝ) (q N : Nat) (hq : 2 ≤ q) (hqN : q ≤ N)
    (hfit : ∀ l ≤ N, RatioOk ρ ratio l) :
    ∃ order : List Int, generateTraverseOrder (F.fin ratio : F ρ) q N = .ok order ∧
      order.head? = some (q : Int) ∧ order.Nodup ∧
      ∀ L ∈ order, (2 ≤ L ∧ L ≤ N) ∧ ∀ a b : List ℝ, a.length = q → (b.length : Int) = L →
        ∃ x : ℝ, warpedDistance (F.fin ratio : F ρ) (fins a) (fins b) F.pinf = .ok (F.fin x) := by
  obtain ⟨order, e1, ⟨t, e2⟩, e3, low, high, b1, b2, b3, b4, m1, m2, m3, m4⟩ :=
    traverse_spec (ρ := ρ) hfit hq hqN
  refine ⟨order, e1, by rw [e2]; rfl, e3, ?_⟩
  intro L hL
  have hb := (m1 L).mp hL
  refine ⟨by omega, ?_⟩
  intro a b ha hb'
  have hf := m2 L hL
  have hr : RatioOk ρ ratio (max a.length b.length) := hfit _ (by omega)
  have hinf := warped_inf hr (by omega : 1 ≤ a.length) (by omega : 1 ≤ b.length)
  have hne : wrd ρ ratio a b ≠ F.pinf := by
    rw [Ne, wrd_finite_iff _ _ _ (by omega) (by omega), ha]
    have : b.length = L.toNat := by omega
    rw [this]
    unfold Fits at hf
    exact fun h => h ⟨hf.2, hf.1⟩
  rcases wrd_val (ρ := ρ) ratio a b (by omega) with h | ⟨x, _, h⟩
  · exact absurd h hne
  · refine ⟨x, ?_⟩
    rw [← h]
    exact hinf

/-- A case: query length 4 among lengths up to 6, ratio 1/4: exactly the lengths 3, 4 and 5. -/
example : ∃ order : List Int, generateTraverseOrder (F.fin (1 / 4) : F Rounding.exact) (4 : Nat) (6 : Nat) = .ok order ∧
    (3 : Int) ∈ order ∧ (5 : Int) ∈ order ∧ (2 : Int) ∉ order ∧ (6 : Int) ∉ order := by
  obtain ⟨order, h1, _, _, h2, _⟩ := C32_traverse_order (1 / 4) 4 6 (by norm_num) (by norm_num) (by norm_num) (by norm_num)
  have hfit : ∀ l ≤ 6, RatioOk Rounding.exact (1 / 4) l := by
    intro l hl
    refine ⟨by norm_num, ?_⟩
    have : (l : ℝ) ≤ 6 := by exact_mod_cast hl
    show (l : ℝ) * (1 / 4) < 2147483648
    linarith
  have hband : bandSize (1 / 4) 4 = 1 ∧ bandSize (1 / 4) 5 = 1 ∧ bandSize (1 / 4) 6 = 1 := by
    refine ⟨?_, ?_, ?_⟩
    · have : ⌊((4 : Nat) : ℝ) * (1 / 4)⌋₊ = 1 := by
        rw [Nat.floor_eq_iff (by norm_num)]; constructor <;> norm_num
      simp only [bandSize, this]
      omega
    · have : ⌊((5 : Nat) : ℝ) * (1 / 4)⌋₊ = 1 := by
        rw [Nat.floor_eq_iff (by norm_num)]; constructor <;> norm_num
      simp only [bandSize, this]
      omega
    · have : ⌊((6 : Nat) : ℝ) * (1 / 4)⌋₊ = 1 := by
        rw [Nat.floor_eq_iff (by norm_num)]; constructor <;> norm_num
      simp only [bandSize, this]
      omega
  have key : ∀ L : Nat, 2 ≤ L → L ≤ 6 → ((L : Int) ∈ order ↔ Fits Rounding.exact (1 / 4) 4 L) := by
    intro L hL hL'
    rw [h2]
    constructor
    · rintro ⟨_, a, b, ha, hb, hw⟩
      have hb' : b.length = L := by omega
      exact (fits_iff_finite (by norm_num) hL (hfit _ (by omega)) a b ha hb').mpr hw
    · intro h
      refine ⟨by omega, List.replicate 4 0, List.replicate L 0, by simp, by simp, ?_⟩
      exact (fits_iff_finite (by norm_num) hL (hfit _ (by omega)) _ _ (by simp) (by simp)).mp h
  refine ⟨order, h1, (key 3 (by norm_num) (by norm_num)).mpr ?_, (key 5 (by norm_num) (by norm_num)).mpr ?_,
    fun h => ?_, fun h => ?_⟩
  · simp only [Fits, bandOf_exact, show Max.max 4 3 = (4 : Nat) from rfl, hband.1]
    omega
  · simp only [Fits, bandOf_exact, show Max.max 4 5 = (5 : Nat) from rfl, hband.2.1]
    omega
  · have := (key 2 (by norm_num) (by norm_num)).mp h
    simp only [Fits, bandOf_exact, show Max.max 4 2 = (4 : Nat) from rfl, hband.1] at this
    omega
  · have := (key 6 (by norm_num) (by norm_num)).mp h
    simp only [Fits, bandOf_exact, show Max.max 4 6 = (6 : Nat) from rfl, hband.2.2] at this
    omega

end Onex
