import Verif.Proofs.Envelope
import Verif.Proofs.WarpedDist

/-!
# The Keogh lower bound
-/

namespace Onex

open Spec DataT

variable {ρ : Rounding} {a b lo up : List ℝ} {r : ℕ}

/-- Penalty of position `k` of `b` for leaving the envelope. -/
noncomputable def pen (ρ : Rounding) (lo up b : List ℝ) (k : ℕ) : ℝ :=
  if up.getD k 0 < b.getD k 0 then ed ρ (b.getD k 0) (up.getD k 0)
  else if b.getD k 0 < lo.getD k 0 then ed ρ (b.getD k 0) (lo.getD k 0)
  else 0

/-- Partial sums of penalties. -/
def ksum (ρ : Rounding) (p : ℕ → ℝ) : ℕ → ℝ
  | 0 => 0
  | k + 1 => ρ.f (ksum ρ p k + p k)

theorem pen_nonneg (k : ℕ) : 0 ≤ pen ρ lo up b k := by
  unfold pen
  split
  · exact ed_nonneg _ _ _
  · split
    · exact ed_nonneg _ _ _
    · exact le_refl _

theorem ksum_fix (p : ℕ → ℝ) (k : ℕ) : ρ.f (ksum ρ p k) = ksum ρ p k := by
  cases k with
  | zero => exact ρ.zero
  | succ k => exact ρ.idem _

theorem ksum_nonneg {p : ℕ → ℝ} (hp : ∀ k, 0 ≤ p k) (k : ℕ) : 0 ≤ ksum ρ p k := by
  induction k with
  | zero => exact le_refl _
  | succ k ih => exact ρ.nonneg (add_nonneg ih (hp k))

theorem ksum_mono {p : ℕ → ℝ} (hp : ∀ k, 0 ≤ p k) {k l : ℕ} (h : k ≤ l) :
    ksum ρ p k ≤ ksum ρ p l := by
  induction h with
  | refl => exact le_refl _
  | step h ih =>
    refine ih.trans ?_
    rename_i m
    have h1 : ksum ρ p m ≤ ksum ρ p m + p m := by have := hp m; linarith
    have h2 := ρ.mono h1
    rwa [ksum_fix] at h2

/-- The loop stops with some partial sum. -/
theorem keoghSum_spec (hl : n ≤ lo.length) (hu : n ≤ up.length) (hb : n ≤ b.length) (D : F ρ) :
    (keoghSum (fins b) (fins lo) (fins up) (n : Int) D).Ensures fun v =>
      ∃ k, k ≤ n ∧ v = F.fin (ksum ρ (pen ρ lo up b) k) := by
  unfold keoghSum
  refine (forBrk_ensures
    (fun i v => ∃ k : ℕ, i = k ∧ k ≤ n ∧ v = F.fin (ksum ρ (pen ρ lo up b) k))
    (fun v => ∃ k, k ≤ n ∧ v = F.fin (ksum ρ (pen ρ lo up b) k))
    (by omega) ⟨0, rfl, by omega, zero_F⟩ ?_).mono ?_
  · rintro j s hj1 hj2 ⟨k, rfl, hk, rfl⟩
    have hk' : k < n := by omega
    by_cases hd : lt (F.fin (ksum ρ (pen ρ lo up b) k)) D = true
    · rw [if_pos hd, tsGet_fins (by omega), vget_fins (by omega), vget_fins (by omega)]
      simp only [Res.bind_ok]
      have g1 : gt (F.fin (b.getD k 0) : F ρ) (F.fin (up.getD k 0)) = true ↔
        up.getD k 0 < b.getD k 0 := lt_fin _ _
      have g2 : lt (F.fin (b.getD k 0) : F ρ) (F.fin (lo.getD k 0)) = true ↔
        b.getD k 0 < lo.getD k 0 := lt_fin _ _
      by_cases h1 : up.getD k 0 < b.getD k 0
      · rw [if_pos (g1.mpr h1)]
        refine ⟨_, rfl, k + 1, by push_cast; rfl, by omega, ?_⟩
        rw [euc_fin, add_fin, ksum, pen, if_pos h1]
      · rw [if_neg (fun h => h1 (g1.mp h))]
        by_cases h2 : b.getD k 0 < lo.getD k 0
        · rw [if_pos (g2.mpr h2)]
          refine ⟨_, rfl, k + 1, by push_cast; rfl, by omega, ?_⟩
          rw [euc_fin, add_fin, ksum, pen, if_neg h1, if_pos h2]
        · rw [if_neg (fun h => h2 (g2.mp h))]
          refine ⟨_, rfl, k + 1, by push_cast; rfl, by omega, ?_⟩
          rw [ksum, pen, if_neg h1, if_neg h2, add_zero, ksum_fix]
    · rw [if_neg hd]
      exact ⟨_, rfl, k, hk, rfl⟩
  · rintro v (⟨k, _, hk, rfl⟩ | h)
    · exact ⟨k, hk, rfl⟩
    · exact h

/-- Every cell of column `j` costs at least the penalty of position `j`. -/
theorem pen_le (he : IsEnvelope a lo up r) {i j : ℕ} (hi : i < a.length) (hj : j < a.length)
    (hb : inB r i j) : pen ρ lo up b j ≤ ecost ρ a b i j := by
  have hmem : a.getD i 0 ∈ window a r j :=
    ⟨i, by simp [List.getD, List.getElem?_eq_getElem hi], hb.2, hb.1⟩
  have hlo := (he.low j hj).2 hmem
  have hup := (he.upp j hj).2 hmem
  unfold pen ecost
  split
  · next h =>
    rw [ed_comm ρ (a.getD i 0)]
    apply ed_mono
    rw [abs_of_nonneg (by linarith), abs_of_nonneg (by linarith)]
    linarith
  · split
    · next h =>
      rw [ed_comm ρ (a.getD i 0)]
      apply ed_mono
      rw [abs_of_nonpos (by linarith), abs_of_nonpos (by linarith)]
      linarith
    · exact ed_nonneg _ _ _

/-- Lower bound on a cell from the sum of penalties. -/
theorem ksum_le_dp {e : ℕ → ℕ → ℝ} {p : ℕ → ℝ} (hc : CostOk ρ e) {m n : ℕ}
    (hp : ∀ i j, i < m → j < n → inB r i j → p j ≤ e i j) (hp0 : ∀ k, 0 ≤ p k) :
    ∀ i j : ℕ, i < m → inB r i j → ksum ρ p (min (j + 1) n) ≤ dp ρ e r i j
  | 0, 0, hm, hb => by
    unfold dp
    rcases Nat.eq_zero_or_pos n with h | h
    · subst h
      exact hc.nonneg 0 0
    · rw [min_eq_left (by omega)]
      simp only [ksum, zero_add]
      have := ρ.mono (hp 0 0 hm h hb)
      rwa [hc.fix] at this
  | i + 1, 0, hm, hb => by
    have ih := ksum_le_dp hc hp hp0 i 0 (by omega) (by unfold inB at *; omega)
    unfold dp
    exact round_le hc (ksum_fix _ _) ih _ _
  | 0, j + 1, hm, hb => by
    have ih := ksum_le_dp hc hp hp0 0 j hm (by unfold inB at *; omega)
    unfold dp
    exact step_le hc hp0 (fun h => hp _ _ hm h hb) ih
  | i + 1, j + 1, hm, hb => by
    rcases dp_succ_cases (ρ := ρ) (e := e) (r := r) i j with h | ⟨h1, h⟩ | ⟨h1, h⟩
    · have ih := ksum_le_dp hc hp hp0 i j (by omega) (by unfold inB at *; omega)
      rw [h]
      exact step_le hc hp0 (fun h => hp _ _ hm h hb) ih
    · have ih := ksum_le_dp hc hp hp0 (i + 1) j hm h1
      rw [h]
      exact step_le hc hp0 (fun h => hp _ _ hm h hb) ih
    · have ih := ksum_le_dp hc hp hp0 i (j + 1) (by omega) h1
      rw [h]
      exact round_le hc (ksum_fix _ _) ih _ _
where
  step_le {e : ℕ → ℕ → ℝ} {p : ℕ → ℝ} {n i j : ℕ} {x : ℝ} (hc : CostOk ρ e) (hp0 : ∀ k, 0 ≤ p k)
      (hp : j + 1 < n → p (j + 1) ≤ e i (j + 1)) (ih : ksum ρ p (min (j + 1) n) ≤ x) :
      ksum ρ p (min (j + 1 + 1) n) ≤ ρ.f (x + e i (j + 1)) := by
    by_cases h : j + 1 < n
    · rw [min_eq_left (by omega)] at ih ⊢
      rw [ksum]
      apply ρ.mono
      have := hp h
      linarith
    · rw [min_eq_right (by omega)] at ih ⊢
      exact round_le hc (ksum_fix _ _) ih _ _

theorem dp_ge_first {e : ℕ → ℕ → ℝ} (hc : CostOk ρ e) :
    (∀ i, dp ρ e r 0 0 ≤ dp ρ e r i 0) ∧ (∀ j, dp ρ e r 0 0 ≤ dp ρ e r 0 j) := by
  constructor
  · intro i
    induction i with
    | zero => exact le_refl _
    | succ i ih =>
      conv_rhs => unfold dp
      exact round_le hc (dp_fix hc _ _) ih _ _
  · intro j
    induction j with
    | zero => exact le_refl _
    | succ j ih =>
      conv_rhs => unfold dp
      exact round_le hc (dp_fix hc _ _) ih _ _

/-- The whole sum of penalties is below the last cell, whenever that is finite. -/
theorem ksum_le_last (he : IsEnvelope a lo up r) (hm : 1 ≤ a.length) (hn : 1 ≤ b.length)
    (hr : Reached r a b) :
    ksum ρ (pen ρ lo up b) (min a.length b.length) ≤
      dp ρ (ecost ρ a b) r (a.length - 1) (b.length - 1) := by
  have hp : ∀ i j, i < a.length → j < min a.length b.length → inB r i j →
      pen ρ lo up b j ≤ ecost ρ a b i j := fun i j hi hj hb => pen_le he hi (by omega) hb
  have h00 := ksum_le_dp (ecost_ok a b) hp pen_nonneg 0 0 (by omega) (by unfold inB; omega)
  rcases hr with h | ⟨h, _⟩ | ⟨h, _⟩
  · have := ksum_le_dp (ecost_ok a b) hp pen_nonneg (a.length - 1) (b.length - 1) (by omega) h
    rwa [show b.length - 1 + 1 = b.length by omega, min_eq_right (by omega : min a.length b.length ≤ b.length)] at this
  · rw [show min (0 + 1) (min a.length b.length) = 1 by omega] at h00
    rw [show min a.length b.length = 1 by omega, show a.length - 1 = 0 by omega]
    exact h00.trans ((dp_ge_first (ecost_ok a b)).2 _)
  · rw [show min (0 + 1) (min a.length b.length) = 1 by omega] at h00
    rw [show min a.length b.length = 1 by omega, show b.length - 1 = 0 by omega]
    exact h00.trans ((dp_ge_first (ecost_ok a b)).1 _)

/-- `keoghLowerBound` runs, keeps the series and its cache right and returns a finite value that
the warped distance is not below. -/
theorem keogh_spec (junk : F ρ) {ratio : ℝ} {sa sb : Series (F ρ)} (ha : SeriesOk sa a)
    (hb : SeriesOk sb b) (hr : RatioOk ρ ratio (max a.length b.length))
    (hm : 1 ≤ a.length) (hn : 1 ≤ b.length) (D : F ρ) :
    ∃ (x : ℝ) (sa' : Series (F ρ)), keoghLowerBound junk (F.fin ratio) sa sb D = .ok (F.fin x, sa') ∧
      SeriesOk sa' a ∧ 0 ≤ x ∧ (wd ρ (rOf ρ ratio a b) a b = F.pinf ∨
        ∃ y, wd ρ (rOf ρ ratio a b) a b = F.fin y ∧ x ≤ y) := by
  unfold keoghLowerBound
  have la : sa.length = len a := by unfold Series.length; rw [ha.vals, len_fins]
  have lb : sb.length = len b := by unfold Series.length; rw [hb.vals, len_fins]
  simp only [la, lb, max_len]
  rw [band_ok hr (by omega)]
  obtain ⟨lo, up, s1, h1, hs1, he1⟩ := getKeogh_spec junk ha hm (bandOf ρ ratio (max a.length b.length))
  obtain ⟨lo2, up2, s2, h2, hs2, he2⟩ := getKeogh_spec junk hs1 hm (bandOf ρ ratio (max a.length b.length))
  have ls : s2.length = len a := by unfold Series.length; rw [hs2.vals, len_fins]
  simp only [Res.bind_ok, h1, h2, ls, max_len, hb.vals]
  have hmin : min (len a) (len b) = ((min a.length b.length : ℕ) : Int) := by simp [len]
  rw [hmin]
  obtain ⟨v, hv, k, hk, rfl⟩ := keoghSum_spec (ρ := ρ) (lo := lo) (up := up2) (b := b)
    (n := min a.length b.length) (by rw [he1.lenLo]; omega) (by rw [he2.lenUp]; omega) (by omega)
    (mul (mul (mul D (ofInt 2)) (ofInt ((max a.length b.length : ℕ) : Int)))
      (mul (mul D (ofInt 2)) (ofInt ((max a.length b.length : ℕ) : Int))))
  have hee : IsEnvelope a lo up2 (bandOf ρ ratio (max a.length b.length)) :=
    ⟨he1.lenLo, he2.lenUp, he1.low, he2.upp⟩
  have h0 : 0 ≤ ksum ρ (pen ρ lo up2 b) k := ksum_nonneg pen_nonneg k
  rw [hv]
  simp only [Res.bind_ok]
  rw [eucNormDtw_fin h0 (by simp only [len]; omega), max_len]
  refine ⟨_, s2, rfl, hs2, ?_, ?_⟩
  · exact ρ.nonneg (div_nonneg (ρ.nonneg (Real.sqrt_nonneg _)) (by positivity))
  · by_cases hre : Reached (rOf ρ ratio a b) a b
    · right
      refine ⟨_, wd_fin hm hre, ?_⟩
      unfold wfin
      have h3 := (ksum_mono (ρ := ρ) (pen_nonneg (lo := lo) (up := up2) (b := b)) hk).trans
        (ksum_le_last hee hm hn hre)
      have h4 := ρ.mono (Real.sqrt_le_sqrt h3)
      apply ρ.mono
      push_cast
      apply div_le_div_of_nonneg_right h4
      positivity
    · left
      exact wd_pinf hre

end Onex
