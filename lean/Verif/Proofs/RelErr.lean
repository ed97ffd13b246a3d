import Verif.Spec.RelErr
import Verif.Proofs.Dists

/-!
# Rounding errors of the distances
-/

namespace Onex
open DataT Spec

section within
variable {u : ℝ}

theorem le_of_sq_le_sq₀ {x y : ℝ} (h : x ^ 2 ≤ y ^ 2) (hy : 0 ≤ y) : x ≤ y := by
  have := sq_le_sq.mp h
  rw [abs_of_nonneg hy] at this
  exact (le_abs_self x).trans this

theorem one_le_pow_add (h : 0 ≤ u) (k : ℕ) : 1 ≤ (1 + u) ^ k := one_le_pow₀ (by linarith)

theorem Spec.Within.refl (u : ℝ) (x : ℝ) : Within u 0 x x := by simp [Within]

theorem Spec.Within.mono (h0 : 0 ≤ u) (h1 : u ≤ 1) {k k' : ℕ} (hk : k ≤ k') {x y : ℝ} (hx : 0 ≤ x) (h : Within u k x y) :
    Within u k' x y := by
  refine ⟨le_trans ?_ h.1, h.2.trans ?_⟩
  · exact mul_le_mul_of_nonneg_right (pow_le_pow_of_le_one (by linarith) (by linarith) hk) hx
  · exact mul_le_mul_of_nonneg_right (pow_le_pow_right₀ (by linarith) hk) hx

theorem Spec.Within.nonneg (h1 : u ≤ 1) {k : ℕ} {x y : ℝ} (hx : 0 ≤ x) (h : Within u k x y) : 0 ≤ y :=
  le_trans (mul_nonneg (pow_nonneg (by linarith) _) hx) h.1

theorem Spec.Within.trans (h0 : 0 ≤ u) (h1 : u ≤ 1) {k l : ℕ} {x y z : ℝ} (h : Within u k x y) (h' : Within u l y z) :
    Within u (k + l) x z := by
  constructor
  · rw [pow_add, mul_comm ((1 - u) ^ k), mul_assoc]
    exact le_trans (mul_le_mul_of_nonneg_left h.1 (pow_nonneg (by linarith) _)) h'.1
  · rw [pow_add, mul_comm ((1 + u) ^ k), mul_assoc]
    exact le_trans h'.2 (mul_le_mul_of_nonneg_left h.2 (pow_nonneg (by linarith) _))

theorem Spec.Within.add {k : ℕ} {x y x' y' : ℝ} (h : Within u k x y) (h' : Within u k x' y') : Within u k (x + x') (y + y') := by
  refine ⟨?_, ?_⟩
  · rw [mul_add]; exact add_le_add h.1 h'.1
  · rw [mul_add]; exact add_le_add h.2 h'.2

theorem Spec.Within.min (h0 : 0 ≤ u) (h1 : u ≤ 1) {k : ℕ} {x y x' y' : ℝ} (h : Within u k x y) (h' : Within u k x' y') :
    Within u k (min x x') (min y y') := by
  refine ⟨?_, ?_⟩
  · rw [mul_min_of_nonneg _ _ (pow_nonneg (by linarith) _)]
    exact min_le_min h.1 h'.1
  · rw [mul_min_of_nonneg _ _ (pow_nonneg (by linarith) _)]
    exact min_le_min h.2 h'.2

theorem Spec.Within.div {k : ℕ} {x y c : ℝ} (hc : 0 ≤ c) (h : Within u k x y) : Within u k (x / c) (y / c) := by
  refine ⟨?_, ?_⟩
  · rw [← mul_div_assoc]; exact div_le_div_of_nonneg_right h.1 hc
  · rw [← mul_div_assoc]; exact div_le_div_of_nonneg_right h.2 hc

/-- Squaring doubles the number of errors. -/
theorem Spec.Within.sq (h1 : u ≤ 1) {k : ℕ} {x y : ℝ} (hx : 0 ≤ x) (h : Within u k x y) : Within u (2 * k) (x ^ 2) (y ^ 2) := by
  have hy := h.nonneg h1 hx
  refine ⟨?_, ?_⟩
  · rw [mul_comm 2 k, pow_mul, ← mul_pow]
    exact pow_le_pow_left₀ (mul_nonneg (pow_nonneg (by linarith) _) hx) h.1 2
  · rw [mul_comm 2 k, pow_mul, ← mul_pow]
    exact pow_le_pow_left₀ hy h.2 2

/-- The error of a value whose square is known up to `k` errors. -/
theorem Spec.Within.rel (h0 : 0 ≤ u) (h1 : u ≤ 1) {k : ℕ} {x y : ℝ} (hx : 0 ≤ x) (hy : 0 ≤ y) (h : Within u k (x ^ 2) (y ^ 2))
    (hk : k * u < 1) : |y - x| ≤ k * u / (1 - k * u) * x := by
  have hb : 1 - k * u ≤ (1 - u) ^ k := by
    have := one_add_mul_le_pow (show (-2 : ℝ) ≤ -u by linarith) k
    rw [← sub_eq_add_neg] at this
    linarith
  have hku : 0 ≤ k * u := by positivity
  have hp : 0 < 1 - k * u := by linarith
  have hsq : (1 - k * u) ^ 2 ≤ 1 - k * u := by nlinarith
  have lo : (1 - k * u) * x ≤ y := by
    refine le_of_sq_le_sq₀ ?_ hy
    rw [mul_pow]
    exact le_trans (mul_le_mul_of_nonneg_right (hsq.trans hb) (sq_nonneg x)) h.1
  have hi : (1 - k * u) * y ≤ x := by
    refine le_of_sq_le_sq₀ ?_ hx
    rw [mul_pow]
    have h2 : (1 - u) ^ k * (1 + u) ^ k ≤ 1 := by
      rw [← mul_pow]
      exact pow_le_one₀ (mul_nonneg (by linarith) (by linarith)) (by nlinarith)
    calc (1 - k * u) ^ 2 * y ^ 2 ≤ (1 - u) ^ k * ((1 + u) ^ k * x ^ 2) :=
          mul_le_mul (hsq.trans hb) h.2 (sq_nonneg y) (pow_nonneg (by linarith) _)
      _ = ((1 - u) ^ k * (1 + u) ^ k) * x ^ 2 := by ring
      _ ≤ 1 * x ^ 2 := mul_le_mul_of_nonneg_right h2 (sq_nonneg x)
      _ = x ^ 2 := one_mul _
  rw [div_mul_eq_mul_div, le_div_iff₀ hp]
  rcases le_total x y with hxy | hxy
  · rw [abs_of_nonneg (by linarith)]; linarith
  · rw [abs_of_nonpos (by linarith)]; nlinarith

end within

section round
variable {ρ : Rounding} {u : ℝ} (hu : RelErr ρ u)

include hu in
/-- One rounding. -/
theorem Spec.RelErr.within {x : ℝ} (hx : 0 ≤ x) : Within u 1 x (ρ.f x) := by
  have h := abs_le.mp (hu.err x)
  rw [abs_of_nonneg hx] at h
  simp only [Within, pow_one]
  constructor <;> linarith [h.1, h.2]

include hu in
theorem Spec.RelErr.round {k : ℕ} {x y : ℝ} (hx : 0 ≤ x) (h : Within u k x y) : Within u (k + 1) x (ρ.f y) :=
  h.trans hu.nonneg hu.lt_one.le (hu.within (h.nonneg hu.lt_one.le hx))

include hu in
theorem Spec.RelErr.mono {k k' : ℕ} (hk : k ≤ k') {x y : ℝ} (hx : 0 ≤ x) (h : Within u k x y) : Within u k' x y :=
  h.mono hu.nonneg hu.lt_one.le hk hx

include hu in
/-- The rounded root, squared. -/
theorem Spec.RelErr.sqrt {k : ℕ} {x y : ℝ} (hx : 0 ≤ x) (h : Within u k x y) : Within u (k + 2) x (ρ.f (Real.sqrt y) ^ 2) := by
  have hy := h.nonneg hu.lt_one.le hx
  have := (hu.within (Real.sqrt_nonneg y)).sq hu.lt_one.le (Real.sqrt_nonneg y)
  rw [Real.sq_sqrt hy] at this
  exact h.trans hu.nonneg hu.lt_one.le this

include hu in
/-- A rounding of a value known by its square. -/
theorem Spec.RelErr.roundSq {k : ℕ} {x y : ℝ} (hy : 0 ≤ y) (h : Within u k x (y ^ 2)) : Within u (k + 2) x (ρ.f y ^ 2) :=
  h.trans hu.nonneg hu.lt_one.le ((hu.within hy).sq hu.lt_one.le hy)

include hu in
/-- The cost of one cell. -/
theorem Spec.RelErr.ed (x y : ℝ) : Within u 3 (Onex.ed Rounding.exact x y) (Onex.ed ρ x y) := by
  have h := (hu.within (abs_nonneg (x - y))).sq hu.lt_one.le (abs_nonneg _)
  have e : ρ.f |x - y| ^ 2 = ρ.f (x - y) * ρ.f (x - y) := by
    rcases abs_choice (x - y) with e | e <;> rw [e]
    · ring
    · rw [ρ.odd]; ring
  rw [e, sq_abs] at h
  have := hu.round (sq_nonneg _) h
  unfold Onex.ed
  simpa [sq] using this

include hu in
theorem Spec.RelErr.pacc (x y : List ℝ) : ∀ i, Within u (i + 3) (pacc Rounding.exact x y i) (Onex.pacc ρ x y i)
  | 0 => by simp [Onex.pacc, Within]
  | i + 1 => by
    have h := (RelErr.pacc x y i).add (hu.mono (by omega : 3 ≤ i + 3) (ed_nonneg _ _ _) (hu.ed (x.getD i 0) (y.getD i 0)))
    have := hu.round (add_nonneg (pacc_nonneg _ _ _) (ed_nonneg _ _ _)) h
    unfold Onex.pacc
    rw [show i + 1 + 3 = i + 3 + 1 by ring]
    exact this

include hu in
theorem Spec.RelErr.eud (a b : List ℝ) : Within u (a.length + 6) (rms a b ^ 2) (eud ρ a b ^ 2) := by
  have hn : (0 : ℝ) ≤ a.length := Nat.cast_nonneg _
  have h0 : 0 ≤ Onex.pacc Rounding.exact a b a.length / a.length := div_nonneg (pacc_nonneg _ _ _) hn
  have h := hu.sqrt h0 (hu.round h0 ((hu.pacc a b a.length).div hn))
  have e : rms a b ^ 2 = Onex.pacc Rounding.exact a b a.length / a.length := by
    unfold rms
    rw [Real.sq_sqrt, pacc_exact]
    rw [← pacc_exact]
    exact h0
  rw [e]
  exact h

include hu in
/-- The recurrence of the warped distance. -/
theorem Spec.RelErr.dp (a b : List ℝ) (r : ℕ) : ∀ i j, Within u (i + j + 3) (dp Rounding.exact (ecost Rounding.exact a b) r i j)
    (Onex.dp ρ (ecost ρ a b) r i j)
  | 0, 0 => by
    unfold Onex.dp ecost
    exact hu.mono (by omega) (ed_nonneg _ _ _) (hu.ed _ _)
  | i + 1, 0 => by
    have n1 := dp_nonneg (ecost_ok (ρ := Rounding.exact) a b) (r := r) i 0
    have h := (RelErr.dp a b r i 0).add (hu.mono (by omega : 3 ≤ i + 0 + 3) (ed_nonneg _ _ _) (hu.ed (a.getD (i + 1) 0) (b.getD 0 0)))
    have := hu.round (add_nonneg n1 (ed_nonneg _ _ _)) h
    rw [Onex.dp, Onex.dp]
    exact hu.mono (by omega) (add_nonneg n1 (ed_nonneg _ _ _)) this
  | 0, j + 1 => by
    have n1 := dp_nonneg (ecost_ok (ρ := Rounding.exact) a b) (r := r) 0 j
    have h := (RelErr.dp a b r 0 j).add (hu.mono (by omega : 3 ≤ 0 + j + 3) (ed_nonneg _ _ _) (hu.ed (a.getD 0 0) (b.getD (j + 1) 0)))
    have := hu.round (add_nonneg n1 (ed_nonneg _ _ _)) h
    rw [Onex.dp, Onex.dp]
    exact hu.mono (by omega) (add_nonneg n1 (ed_nonneg _ _ _)) this
  | i + 1, j + 1 => by
    have he := ecost_ok (ρ := Rounding.exact) a b
    have n1 := dp_nonneg he (r := r) i j
    have n2 := dp_nonneg he (r := r) (i + 1) j
    have n3 := dp_nonneg he (r := r) i (j + 1)
    have h1 := hu.mono (by omega : i + j + 3 ≤ i + j + 4) n1 (RelErr.dp a b r i j)
    have h2 := hu.mono (by omega : i + 1 + j + 3 ≤ i + j + 4) n2 (RelErr.dp a b r (i + 1) j)
    have h3 := hu.mono (by omega : i + (j + 1) + 3 ≤ i + j + 4) n3 (RelErr.dp a b r i (j + 1))
    have k2 : Within u (i + j + 4) (if inB r (i + 1) j then Onex.dp Rounding.exact (ecost Rounding.exact a b) r (i + 1) j
          else Onex.dp Rounding.exact (ecost Rounding.exact a b) r i j)
        (if inB r (i + 1) j then Onex.dp ρ (ecost ρ a b) r (i + 1) j else Onex.dp ρ (ecost ρ a b) r i j) := by
      split
      · exact h2
      · exact h1
    have k3 : Within u (i + j + 4) (if inB r i (j + 1) then Onex.dp Rounding.exact (ecost Rounding.exact a b) r i (j + 1)
          else Onex.dp Rounding.exact (ecost Rounding.exact a b) r i j)
        (if inB r i (j + 1) then Onex.dp ρ (ecost ρ a b) r i (j + 1) else Onex.dp ρ (ecost ρ a b) r i j) := by
      split
      · exact h3
      · exact h1
    have hm := h1.min hu.nonneg hu.lt_one.le (k2.min hu.nonneg hu.lt_one.le k3)
    have h := hm.add (hu.mono (by omega : 3 ≤ i + j + 4) (ed_nonneg _ _ _) (hu.ed (a.getD (i + 1) 0) (b.getD (j + 1) 0)))
    have hnn := le_min n1 (le_min (show 0 ≤ (if inB r (i + 1) j then Onex.dp Rounding.exact (ecost Rounding.exact a b) r (i + 1) j
          else Onex.dp Rounding.exact (ecost Rounding.exact a b) r i j) by split <;> assumption)
        (show 0 ≤ (if inB r i (j + 1) then Onex.dp Rounding.exact (ecost Rounding.exact a b) r i (j + 1)
          else Onex.dp Rounding.exact (ecost Rounding.exact a b) r i j) by split <;> assumption))
    have := hu.round (add_nonneg hnn (ed_nonneg _ _ _)) h
    rw [dp_succ, dp_succ]
    rw [show i + 1 + (j + 1) + 3 = i + j + 4 + 1 by ring]
    exact this

theorem warpedIn_sq {r : ℕ} {a b : List ℝ} (hb : inB r (a.length - 1) (b.length - 1)) :
    warpedIn r a b ^ 2 = Onex.dp Rounding.exact (ecost Rounding.exact a b) r (a.length - 1) (b.length - 1) /
      ((2 * max a.length b.length : ℕ) : ℝ) ^ 2 := by
  have h := (dp_isLeast a b hb).csInf_eq
  unfold warpedIn
  rw [h, div_pow, Real.sq_sqrt (dp_nonneg (ecost_ok a b) _ _)]
  push_cast
  rfl

include hu in
theorem Spec.RelErr.wfin {r : ℕ} {a b : List ℝ} (hm : 1 ≤ a.length) (hn : 1 ≤ b.length) (hb : inB r (a.length - 1) (b.length - 1)) :
    Within u (a.length + b.length + 5) (warpedIn r a b ^ 2) (Onex.wfin ρ r a b ^ 2) := by
  have hc : (0 : ℝ) ≤ ((2 * max a.length b.length : ℕ) : ℝ) := Nat.cast_nonneg _
  have n1 := dp_nonneg (ecost_ok (ρ := Rounding.exact) a b) (r := r) (a.length - 1) (b.length - 1)
  have h := (hu.sqrt n1 (hu.dp a b r (a.length - 1) (b.length - 1))).div (sq_nonneg ((2 * max a.length b.length : ℕ) : ℝ))
  rw [← div_pow, ← warpedIn_sq hb] at h
  have := hu.roundSq (div_nonneg (ρ.nonneg (Real.sqrt_nonneg _)) hc) h
  rw [show a.length + b.length + 5 = a.length - 1 + (b.length - 1) + 3 + 2 + 2 by omega]
  exact this

end round

end Onex
