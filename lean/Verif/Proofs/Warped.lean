import Verif.Proofs.Flt

/-!
# `warpedDistance` computes a recurrence
-/

set_option linter.unusedSimpArgs false

namespace Onex

variable {ρ : Rounding}

/-- Cell `(i, j)` lies in the Sakoe-Chiba band of width `r`. -/
def inB (r i j : ℕ) : Prop := i ≤ j + r ∧ j ≤ i + r

instance (r i j : ℕ) : Decidable (inB r i j) := by unfold inB; infer_instance

/-- The recurrence behind the cost matrix, on cells inside the band (`e i j` is the cost of cell
`(i, j)`). -/
def dp (ρ : Rounding) (e : ℕ → ℕ → ℝ) (r : ℕ) : ℕ → ℕ → ℝ
  | 0, 0 => e 0 0
  | i + 1, 0 => ρ.f (dp ρ e r i 0 + e (i + 1) 0)
  | 0, j + 1 => ρ.f (dp ρ e r 0 j + e 0 (j + 1))
  | i + 1, j + 1 =>
    let d := dp ρ e r i j
    ρ.f (min d (min (if inB r (i + 1) j then dp ρ e r (i + 1) j else d)
      (if inB r i (j + 1) then dp ρ e r i (j + 1) else d)) + e (i + 1) (j + 1))

theorem dp_succ (e : ℕ → ℕ → ℝ) (r i j : ℕ) : dp ρ e r (i + 1) (j + 1) =
    ρ.f (min (dp ρ e r i j) (min (if inB r (i + 1) j then dp ρ e r (i + 1) j else dp ρ e r i j)
      (if inB r i (j + 1) then dp ρ e r i (j + 1) else dp ρ e r i j)) + e (i + 1) (j + 1)) := by
  rw [dp]

/-- Costs of cells: nonnegative and representable. -/
structure CostOk (ρ : Rounding) (e : ℕ → ℕ → ℝ) : Prop where
  nonneg : ∀ i j, 0 ≤ e i j
  fix : ∀ i j, ρ.f (e i j) = e i j

/-- The cell costs of two series. -/
def ecost (ρ : Rounding) (a b : List ℝ) (i j : ℕ) : ℝ := ed ρ (a.getD i 0) (b.getD j 0)

theorem ecost_ok (a b : List ℝ) : CostOk ρ (ecost ρ a b) :=
  ⟨fun _ _ => ed_nonneg _ _ _, fun _ _ => ed_fix _ _ _⟩

section dp
variable {e : ℕ → ℕ → ℝ} {r : ℕ}

theorem dp_fix (he : CostOk ρ e) (i j : ℕ) : ρ.f (dp ρ e r i j) = dp ρ e r i j := by
  cases i <;> cases j <;> unfold dp
  · exact he.fix 0 0
  all_goals exact ρ.idem _

theorem le_round_add (he : CostOk ρ e) {x : ℝ} (hx : ρ.f x = x) (i j : ℕ) :
    x ≤ ρ.f (x + e i j) := by
  have : x ≤ x + e i j := by have := he.nonneg i j; linarith
  have := ρ.mono this
  rwa [hx] at this

theorem round_le (he : CostOk ρ e) {x y : ℝ} (hx : ρ.f x = x) (hxy : x ≤ y) (i j : ℕ) :
    x ≤ ρ.f (y + e i j) := by
  have h1 : x ≤ y + e i j := by have := he.nonneg i j; linarith
  have := ρ.mono h1
  rwa [hx] at this

theorem dp_nonneg (he : CostOk ρ e) : ∀ i j : ℕ, 0 ≤ dp ρ e r i j
  | 0, 0 => by unfold dp; exact he.nonneg 0 0
  | i + 1, 0 => by
    unfold dp
    exact ρ.nonneg (add_nonneg (dp_nonneg he i 0) (he.nonneg _ _))
  | 0, j + 1 => by
    unfold dp
    exact ρ.nonneg (add_nonneg (dp_nonneg he 0 j) (he.nonneg _ _))
  | i + 1, j + 1 => by
    rw [dp_succ]
    refine ρ.nonneg (add_nonneg ?_ (he.nonneg _ _))
    have h1 := dp_nonneg he i j
    have h2 := dp_nonneg he (i + 1) j
    have h3 := dp_nonneg he i (j + 1)
    split <;> split <;> simp [h1, h2, h3]

/-- The predecessor actually used at an inner cell. -/
theorem dp_succ_cases (i j : ℕ) :
    (dp ρ e r (i + 1) (j + 1) = ρ.f (dp ρ e r i j + e (i + 1) (j + 1))) ∨
    (inB r (i + 1) j ∧ dp ρ e r (i + 1) (j + 1) = ρ.f (dp ρ e r (i + 1) j + e (i + 1) (j + 1))) ∨
    (inB r i (j + 1) ∧
      dp ρ e r (i + 1) (j + 1) = ρ.f (dp ρ e r i (j + 1) + e (i + 1) (j + 1))) := by
  rw [dp_succ]
  generalize dp ρ e r i j = x
  generalize dp ρ e r (i + 1) j = y
  generalize dp ρ e r i (j + 1) = z
  by_cases h1 : inB r (i + 1) j <;> by_cases h2 : inB r i (j + 1) <;> simp only [h1, h2, if_true, if_false]
  · rcases min_choice x (min y z) with h | h
    · left; rw [h]
    · rw [h]
      rcases min_choice y z with h | h
      · right; left; rw [h]; simp
      · right; right; rw [h]; simp
  · rcases min_choice x (min y x) with h | h
    · left; rw [h]
    · rw [h]
      rcases min_choice y x with h | h
      · right; left; rw [h]; simp
      · left; rw [h]
  · rcases min_choice x (min x z) with h | h
    · left; rw [h]
    · rw [h]
      rcases min_choice x z with h | h
      · left; rw [h]
      · right; right; rw [h]; simp
  · left; simp

theorem dp_le_diag (i j : ℕ) :
    dp ρ e r (i + 1) (j + 1) ≤ ρ.f (dp ρ e r i j + e (i + 1) (j + 1)) := by
  rw [dp_succ]
  apply ρ.mono
  have := min_le_left (dp ρ e r i j) (min (if inB r (i + 1) j then dp ρ e r (i + 1) j else dp ρ e r i j)
      (if inB r i (j + 1) then dp ρ e r i (j + 1) else dp ρ e r i j))
  linarith

theorem dp_le_left (i j : ℕ) (h : inB r (i + 1) j) :
    dp ρ e r (i + 1) (j + 1) ≤ ρ.f (dp ρ e r (i + 1) j + e (i + 1) (j + 1)) := by
  rw [dp_succ]
  apply ρ.mono
  simp only [h, if_true]
  have h1 := min_le_right (dp ρ e r i j) (min (dp ρ e r (i + 1) j)
      (if inB r i (j + 1) then dp ρ e r i (j + 1) else dp ρ e r i j))
  have h2 := min_le_left (dp ρ e r (i + 1) j)
      (if inB r i (j + 1) then dp ρ e r i (j + 1) else dp ρ e r i j)
  linarith

theorem dp_le_up (i j : ℕ) (h : inB r i (j + 1)) :
    dp ρ e r (i + 1) (j + 1) ≤ ρ.f (dp ρ e r i (j + 1) + e (i + 1) (j + 1)) := by
  rw [dp_succ]
  apply ρ.mono
  simp only [h, if_true]
  have h1 := min_le_right (dp ρ e r i j) (min (if inB r (i + 1) j then dp ρ e r (i + 1) j else dp ρ e r i j)
      (dp ρ e r i (j + 1)))
  have h2 := min_le_right (if inB r (i + 1) j then dp ρ e r (i + 1) j else dp ρ e r i j)
      (dp ρ e r i (j + 1))
  linarith

/-- Every cell is at least as large as some in-band cell of each earlier row. -/
theorem dp_row (he : CostOk ρ e) (k : ℕ) : ∀ i j : ℕ, k ≤ i → inB r i j →
    ∃ j', j' ≤ j ∧ inB r k j' ∧ dp ρ e r k j' ≤ dp ρ e r i j
  | 0, j, hk, hb => by
    obtain rfl : k = 0 := by omega
    exact ⟨j, le_refl _, hb, le_refl _⟩
  | i + 1, 0, hk, hb => by
    rcases Nat.lt_or_ge i k with h | h
    · obtain rfl : k = i + 1 := by omega
      exact ⟨0, le_refl _, hb, le_refl _⟩
    · obtain ⟨j', h1, h2, h3⟩ := dp_row he k i 0 h (by unfold inB at *; omega)
      refine ⟨j', h1, h2, h3.trans ?_⟩
      conv_rhs => unfold dp
      exact le_round_add he (dp_fix he i 0) _ _
  | i + 1, j + 1, hk, hb => by
    rcases Nat.lt_or_ge i k with h | h
    · obtain rfl : k = i + 1 := by omega
      exact ⟨j + 1, le_refl _, hb, le_refl _⟩
    · rcases dp_succ_cases (ρ := ρ) (e := e) (r := r) i j with hc | ⟨hb', hc⟩ | ⟨hb', hc⟩
      · obtain ⟨j', h1, h2, h3⟩ := dp_row he k i j h (by unfold inB at *; omega)
        refine ⟨j', by omega, h2, h3.trans ?_⟩
        rw [hc]
        exact le_round_add he (dp_fix he _ _) _ _
      · obtain ⟨j', h1, h2, h3⟩ := dp_row he k (i + 1) j hk hb'
        refine ⟨j', by omega, h2, h3.trans ?_⟩
        rw [hc]
        exact le_round_add he (dp_fix he _ _) _ _
      · obtain ⟨j', h1, h2, h3⟩ := dp_row he k i (j + 1) h hb'
        refine ⟨j', h1, h2, h3.trans ?_⟩
        rw [hc]
        exact le_round_add he (dp_fix he _ _) _ _

theorem dp_swap : ∀ i j : ℕ, dp ρ e r i j = dp ρ (fun p q => e q p) r j i
  | 0, 0 => by simp [dp]
  | i + 1, 0 => by simp [dp, dp_swap i 0]
  | 0, j + 1 => by simp [dp, dp_swap 0 j]
  | i + 1, j + 1 => by
    rw [dp_succ, dp_succ]
    have hs : ∀ p q, inB r p q ↔ inB r q p := by intro p q; unfold inB; omega
    simp only [← dp_swap i j, ← dp_swap (i + 1) j, ← dp_swap i (j + 1), hs j (i + 1), hs (j + 1) i]
    rw [min_comm (if inB r (i + 1) j then _ else _)]

end dp

/-! ## The cells -/

/-- What is known about the cost matrix when rows `< k` and, of row `k`, columns `< l` are done. -/
structure Filled (ρ : Rounding) (e : ℕ → ℕ → ℝ) (r m n : ℕ) (k l : ℕ) (c : Mat (F ρ)) : Prop where
  mat : IsMat c m n
  rows : ∀ i j : ℕ, i < m → j < n → inB r i j → (i < k ∨ (i = k ∧ j < l)) →
    mget c i j = .ok (F.fin (dp ρ e r i j))
  col0 : ∀ i : ℕ, i < m → i < 2 * r + 1 → mget c i (0 : ℕ) = .ok (F.fin (dp ρ e r i 0))
  row0 : ∀ j : ℕ, j < n → j < 2 * r + 1 → mget c (0 : ℕ) j = .ok (F.fin (dp ρ e r 0 j))
  corner : ¬ inB r (m - 1) (n - 1) → ¬ (m = 1 ∧ n - 1 < 2 * r + 1) → ¬ (n = 1 ∧ m - 1 < 2 * r + 1) →
    mget c (m - 1 : ℕ) (n - 1 : ℕ) = .ok F.pinf

/-- The best value so far in row `i`, columns `< l`. -/
def BestOk (ρ : Rounding) (e : ℕ → ℕ → ℝ) (r i l : ℕ) (best : F ρ) : Prop :=
  (best = F.pinf ∨ ∃ x, best = F.fin x) ∧
  ∀ j, j < l → inB r i j → ∃ x, best = F.fin x ∧ x ≤ dp ρ e r i j

theorem bestOk_step {e : ℕ → ℕ → ℝ} {r i l : ℕ} {best : F ρ} (h : BestOk ρ e r i l best) :
    BestOk ρ e r i (l + 1) (DataT.min best (F.fin (dp ρ e r i l))) := by
  obtain ⟨h1, h2⟩ := h
  rcases h1 with rfl | ⟨x, rfl⟩
  · rw [min_pinf_fin]
    refine ⟨Or.inr ⟨_, rfl⟩, ?_⟩
    intro j hj hb
    rcases Nat.lt_or_ge j l with hjl | hjl
    · obtain ⟨x, hx, _⟩ := h2 j hjl hb
      cases hx
    · obtain rfl : j = l := by omega
      exact ⟨_, rfl, le_refl _⟩
  · rw [min_fin]
    refine ⟨Or.inr ⟨_, rfl⟩, ?_⟩
    intro j hj hb
    refine ⟨_, rfl, ?_⟩
    rcases Nat.lt_or_ge j l with hjl | hjl
    · obtain ⟨y, hy, hle⟩ := h2 j hjl hb
      cases hy
      exact (min_le_left _ _).trans hle
    · obtain rfl : j = l := by omega
      exact min_le_right _ _

section code
variable {a b : List ℝ} {r : ℕ}

theorem warpedCell_spec {i l : ℕ} (hi0 : 1 ≤ i) (hi : i < a.length) (hl : l < b.length)
    (hb : inB r i l) {c : Mat (F ρ)} {best : F ρ}
    (hc : Filled ρ (ecost ρ a b) r a.length b.length i l c)
    (hbest : BestOk ρ (ecost ρ a b) r i l best) :
    (warpedCell (fins a) (fins b) (r : Int) (i : Int) (l : Int) (c, best)).Ensures fun s =>
      Filled ρ (ecost ρ a b) r a.length b.length i (l + 1) s.1 ∧
      BestOk ρ (ecost ρ a b) r i (l + 1) s.2 := by
  unfold warpedCell
  simp only
  rcases Nat.eq_zero_or_pos l with rfl | hl0
  · have h1 := hc.col0 i hi (by unfold inB at hb; omega)
    simp only [Nat.cast_zero, if_true]
    simp only [Nat.cast_zero] at h1
    rw [h1]
    simp only [Res.bind_ok, Res.pure_eq, Res.ensures_ok]
    refine ⟨{ hc with rows := ?_ }, bestOk_step hbest⟩
    intro p q hp hq hpq hlt
    by_cases h : p = i ∧ q = 0
    · obtain ⟨rfl, rfl⟩ := h
      exact hc.col0 p hi (by unfold inB at hb; omega)
    · exact hc.rows p q hp hq hpq (by omega)
  · obtain ⟨i', rfl⟩ : ∃ i', i = i' + 1 := ⟨i - 1, by omega⟩
    obtain ⟨j', rfl⟩ : ∃ j', l = j' + 1 := ⟨l - 1, by omega⟩
    have ne0 : ¬ (((j' + 1 : ℕ) : Int) = 0) := by omega
    rw [if_neg ne0]
    have ei : ((i' + 1 : ℕ) : Int) - 1 = (i' : ℕ) := by omega
    have ej : ((j' + 1 : ℕ) : Int) - 1 = (j' : ℕ) := by omega
    rw [ei, ej]
    have c1 : (((i' + 1 : ℕ) : Int) - r ≤ j' ∧ (j' : Int) ≤ ((i' + 1 : ℕ) : Int) + r) ↔
        inB r (i' + 1) j' := by unfold inB; omega
    have c2 : (((j' + 1 : ℕ) : Int) - r ≤ i' ∧ (i' : Int) ≤ ((j' + 1 : ℕ) : Int) + r) ↔
        inB r i' (j' + 1) := by unfold inB; omega
    simp only [c1, c2]
    have hdiag : inB r i' j' := by unfold inB at *; omega
    have g1 := hc.rows i' j' (by omega) (by omega) hdiag (by omega)
    have g2 : inB r (i' + 1) j' → mget c (i' + 1 : ℕ) j' = .ok (F.fin (dp ρ (ecost ρ a b) r (i' + 1) j')) :=
      fun h => hc.rows (i' + 1) j' hi (by omega) h (by omega)
    have g3 : inB r i' (j' + 1) → mget c i' (j' + 1 : ℕ) = .ok (F.fin (dp ρ (ecost ρ a b) r i' (j' + 1))) :=
      fun h => hc.rows i' (j' + 1) (by omega) hl h (by omega)
    obtain ⟨w, hw⟩ := mget_ok hc.mat (i := i') (j := j' + 1) (by omega) hl
    have key : ∀ v, v = F.fin (dp ρ (ecost ρ a b) r (i' + 1) (j' + 1)) →
        Res.Ensures (do
          let cost ← mset c (i' + 1 : ℕ) (j' + 1 : ℕ) v
          return (cost, DataT.min best v)) (fun s =>
            Filled ρ (ecost ρ a b) r a.length b.length (i' + 1) (j' + 1 + 1) s.1 ∧
            BestOk ρ (ecost ρ a b) r (i' + 1) (j' + 1 + 1) s.2) := by
      rintro v rfl
      obtain ⟨c', hs, hm, hget⟩ := mset_ok hc.mat hi hl (F.fin (dp ρ (ecost ρ a b) r (i' + 1) (j' + 1)))
      rw [hs]
      simp only [Res.bind_ok, Res.pure_eq, Res.ensures_ok]
      refine ⟨⟨hm, ?_, ?_, ?_, ?_⟩, bestOk_step hbest⟩
      · intro p q hp hq hpq hlt
        rw [hget]
        by_cases h : p = i' + 1 ∧ q = j' + 1
        · rw [if_pos h, h.1, h.2]
        · rw [if_neg h]
          exact hc.rows p q hp hq hpq (by omega)
      · intro p hp hp2
        rw [hget, if_neg (by omega)]
        exact hc.col0 p hp hp2
      · intro q hq hq2
        rw [hget, if_neg (by omega)]
        exact hc.row0 q hq hq2
      · intro h1 h2 h3
        rw [hget, if_neg]
        · exact hc.corner h1 h2 h3
        · rintro ⟨h4, h5⟩
          rw [h4, h5] at h1
          exact h1 hb
    have hx := tsGet_fins (ρ := ρ) (l := a) (i := i' + 1) hi
    have hy := tsGet_fins (ρ := ρ) (l := b) (i := j' + 1) hl
    by_cases b1 : inB r (i' + 1) j' <;> by_cases b2 : inB r i' (j' + 1)
    · simp only [b1, b2, if_true, g1, g2 b1, g3 b2, Res.bind_ok, lt_fin_eq, hx, hy]
      generalize hD : dp ρ (ecost ρ a b) r (i' + 1) (j' + 1) = D at *
      rw [dp_succ] at hD
      simp only [b1, b2, if_true] at hD
      generalize dp ρ (ecost ρ a b) r i' j' = x at *
      generalize dp ρ (ecost ρ a b) r (i' + 1) j' = y at *
      generalize dp ρ (ecost ρ a b) r i' (j' + 1) = z at *
      by_cases h1 : x < y ∧ x < z
      · simp only [h1.1, h1.2, decide_true, Bool.and_self, if_true, Res.bind_ok]
        apply key
        rw [euc_fin, add_fin, ← hD, min_eq_left (le_min h1.1.le h1.2.le)]
        rfl
      · have h1' : (decide (x < y) && decide (x < z)) = false := by
          simpa using h1
        simp only [h1']
        by_cases h2 : y < z
        · simp only [h2, decide_true, if_true, Res.bind_ok, Bool.false_eq_true, if_false]
          apply key
          have : y ≤ x := by
            by_contra hlt
            exact h1 ⟨not_le.mp hlt, (not_le.mp hlt).trans h2⟩
          rw [euc_fin, add_fin, ← hD, min_eq_left h2.le, min_eq_right this]
          rfl
        · simp only [h2, decide_false, Res.bind_ok, Bool.false_eq_true, if_false, Res.pure_eq]
          apply key
          have hzy := not_lt.mp h2
          have : z ≤ x := by
            by_contra hlt
            exact h1 ⟨(not_le.mp hlt).trans_le hzy, not_le.mp hlt⟩
          rw [euc_fin, add_fin, ← hD, min_eq_right hzy, min_eq_right this]
          rfl
    · simp only [b1, b2, if_true, if_false, g1, g2 b1, hw, Res.bind_ok, lt_fin_eq, hx, hy, Res.pure_eq]
      generalize hD : dp ρ (ecost ρ a b) r (i' + 1) (j' + 1) = D at *
      rw [dp_succ] at hD
      simp only [b1, b2, if_true, if_false] at hD
      generalize dp ρ (ecost ρ a b) r i' j' = x at *
      generalize dp ρ (ecost ρ a b) r (i' + 1) j' = y at *
      by_cases h1 : x < y
      · simp only [h1, inf_F, lt_fin_pinf, decide_true, Bool.and_self, if_true, Res.bind_ok]
        apply key
        rw [euc_fin, add_fin, ← hD, min_eq_right h1.le, min_self]
        rfl
      · simp only [h1, inf_F, lt_fin_pinf, decide_false, Bool.false_and, Bool.false_eq_true, if_false,
          if_true, Res.bind_ok]
        apply key
        have h1' := not_lt.mp h1
        rw [euc_fin, add_fin, ← hD, min_eq_left h1', min_eq_right h1']
        rfl
    · simp only [b1, b2, if_true, if_false, g1, g3 b2, Res.bind_ok, lt_fin_eq, hx, hy, Res.pure_eq]
      generalize hD : dp ρ (ecost ρ a b) r (i' + 1) (j' + 1) = D at *
      rw [dp_succ] at hD
      simp only [b1, b2, if_true, if_false] at hD
      generalize dp ρ (ecost ρ a b) r i' j' = x at *
      generalize dp ρ (ecost ρ a b) r i' (j' + 1) = z at *
      by_cases h1 : x < z
      · simp only [h1, inf_F, lt_fin_pinf, decide_true, Bool.and_self, if_true, Res.bind_ok]
        apply key
        rw [euc_fin, add_fin, ← hD, min_eq_left h1.le, min_self]
        rfl
      · simp only [h1, inf_F, lt_fin_pinf, lt_pinf, decide_false, Bool.and_false, Bool.false_eq_true, if_false,
          Res.bind_ok]
        apply key
        have h1' := not_lt.mp h1
        rw [euc_fin, add_fin, ← hD, min_eq_right h1', min_eq_right h1']
        rfl
    · simp only [b1, b2, if_false, g1, hw, Res.bind_ok, hx, hy, Res.pure_eq, inf_F, lt_fin_pinf,
        Bool.and_self, if_true]
      apply key
      rw [dp_succ]
      simp only [b1, b2, if_false, min_self]
      rw [euc_fin, add_fin]
      rfl

/-- A whole row. -/
theorem warpedRow_spec {i : ℕ} (hi0 : 1 ≤ i) (hi : i < a.length) (hn : 1 ≤ b.length)
    {c : Mat (F ρ)} {dr : Bool} {idrop : F ρ}
    (hc : Filled ρ (ecost ρ a b) r a.length b.length i 0 c) :
    (warpedRow (fins a) (fins b) (r : Int) idrop (i : Int) (c, dr)).Ensures fun
      | .next s => Filled ρ (ecost ρ a b) r a.length b.length (i + 1) 0 s.1 ∧ s.2 = dr
      | .brk s => s.2 = true ∧ DataT.lt idrop F.pinf = true ∧
          ∀ j, j < b.length → inB r i j →
            DataT.lt idrop (F.fin (dp ρ (ecost ρ a b) r i j)) = true := by
  unfold warpedRow
  simp only
  have hloop : (forInt (Max.max ((i : Int) - r) 0) (Min.min ((i : Int) + r) (len (fins b : List (F ρ)) - 1) + 1)
      (c, DataT.inf) (warpedCell (fins a) (fins b) (r : Int) (i : Int))).Ensures fun s =>
        Filled ρ (ecost ρ a b) r a.length b.length (i + 1) 0 s.1 ∧
        BestOk ρ (ecost ρ a b) r i b.length s.2 := by
    rw [len_fins]
    have start : ∀ l : ℕ, (l : Int) ≤ Max.max ((i : Int) - r) 0 →
        Filled ρ (ecost ρ a b) r a.length b.length i l c := by
      intro l hl
      refine { hc with rows := ?_ }
      intro p q hp hq hpq hlt
      apply hc.rows p q hp hq hpq
      unfold inB at hpq
      omega
    by_cases hle : Max.max ((i : Int) - r) 0 ≤ Min.min ((i : Int) + r) (len b - 1) + 1
    · refine Res.Ensures.mono (forInt_ensures (fun l s =>
        Filled ρ (ecost ρ a b) r a.length b.length i l.toNat s.1 ∧
        BestOk ρ (ecost ρ a b) r i l.toNat s.2) hle ?_ ?_) ?_
      · refine ⟨start _ (by omega), Or.inl rfl, ?_⟩
        intro j hj hb
        unfold inB at hb
        omega
      · rintro l ⟨c', best⟩ h1 h2 ⟨h3, h4⟩
        obtain ⟨k, rfl⟩ := Int.eq_ofNat_of_zero_le (show 0 ≤ l by omega)
        simp only [Int.toNat_natCast] at h3 h4
        have e1 : ((k : Int) + 1).toNat = k + 1 := by omega
        rw [e1]
        apply warpedCell_spec hi0 hi _ _ h3 h4
        · simp only [len] at h2; omega
        · simp only [len] at h2; unfold inB; omega
      · rintro ⟨c', best⟩ ⟨h3, h4⟩
        simp only at h3 h4 ⊢
        refine ⟨{ h3 with rows := ?_ }, h4.1, ?_⟩
        · intro p q hp hq hpq hlt
          apply h3.rows p q hp hq hpq
          simp only [len]
          unfold inB at hpq
          omega
        · intro j hj hb
          apply h4.2 j _ hb
          simp only [len]
          unfold inB at hb
          omega
    · rw [forInt_of_le (by omega)]
      simp only [Res.ensures_ok]
      refine ⟨{ hc with rows := ?_ }, Or.inl rfl, ?_⟩
      · intro p q hp hq hpq hlt
        apply hc.rows p q hp hq hpq
        simp only [len] at hle
        unfold inB at hpq
        omega
      · intro j hj hb
        simp only [len] at hle
        unfold inB at hb
        omega
  refine Res.Ensures.bind hloop ?_
  rintro ⟨c', best⟩ ⟨h1, h2, h3⟩
  simp only at h1 h2 h3 ⊢
  unfold DataT.gt
  by_cases hgt : DataT.lt idrop best = true
  · simp only [hgt, if_true, Res.pure_eq, Res.ensures_ok, true_and]
    constructor
    · rcases h2 with rfl | ⟨x, rfl⟩
      · exact hgt
      · rw [lt_iff] at *
        cases idrop with
        | nan => exact hgt
        | ninf => trivial
        | fin y => trivial
        | pinf => exact hgt
    · intro j hj hb
      obtain ⟨x, rfl, hx⟩ := h3 j hj hb
      rw [lt_iff] at *
      cases idrop with
      | nan => exact hgt
      | ninf => trivial
      | fin y => exact lt_of_lt_of_le hgt hx
      | pinf => exact hgt
  · simp only [hgt, Res.pure_eq]
    simpa using h1

/-- What the last cell holds when no row was abandoned. -/
noncomputable def lastCell (ρ : Rounding) (r : ℕ) (a b : List ℝ) : F ρ :=
  if inB r (a.length - 1) (b.length - 1) ∨ (a.length = 1 ∧ b.length - 1 < 2 * r + 1) ∨
      (b.length = 1 ∧ a.length - 1 < 2 * r + 1) then
    F.fin (dp ρ (ecost ρ a b) r (a.length - 1) (b.length - 1))
  else F.pinf

/-- Row `i` lies entirely above the dropout. -/
def RowAbove (ρ : Rounding) (r : ℕ) (a b : List ℝ) (idrop : F ρ) : Prop :=
  DataT.lt idrop F.pinf = true ∧ ∃ i, 1 ≤ i ∧ i < a.length ∧ ∀ j, j < b.length → inB r i j →
    DataT.lt idrop (F.fin (dp ρ (ecost ρ a b) r i j)) = true

theorem warpedBand_init (hm : 1 ≤ a.length) (hn : 1 ≤ b.length)
    (h11 : ¬ (a.length = 1 ∧ b.length = 1)) :
    ∃ c0 c1 : Mat (F ρ),
      mset (List.replicate (len (fins a : List (F ρ))).toNat
        (List.replicate (len (fins b : List (F ρ))).toNat (DataT.zero : F ρ)))
        (len (fins a : List (F ρ)) - 1) (len (fins b : List (F ρ)) - 1) DataT.inf = .ok c0 ∧
      mset c0 0 0 (F.fin (ecost ρ a b 0 0)) = .ok c1 ∧
      IsMat c1 a.length b.length ∧
      mget c1 (0 : ℕ) (0 : ℕ) = .ok (F.fin (dp ρ (ecost ρ a b) r 0 0)) ∧
      mget c1 (a.length - 1 : ℕ) (b.length - 1 : ℕ) = .ok F.pinf := by
  have e1 : len (fins a : List (F ρ)) - 1 = ((a.length - 1 : ℕ) : Int) := by
    rw [len_fins]; simp only [len]; omega
  have e2 : len (fins b : List (F ρ)) - 1 = ((b.length - 1 : ℕ) : Int) := by
    rw [len_fins]; simp only [len]; omega
  have e3 : (len (fins a : List (F ρ))).toNat = a.length := by rw [len_fins]; simp [len]
  have e4 : (len (fins b : List (F ρ))).toNat = b.length := by rw [len_fins]; simp [len]
  rw [e1, e2, e3, e4]
  obtain ⟨c0, h0, hm0, hg0⟩ := mset_ok (isMat_replicate a.length b.length (DataT.zero : F ρ))
    (i := a.length - 1) (j := b.length - 1) (by omega) (by omega) DataT.inf
  obtain ⟨c1, h1, hm1, hg1⟩ := mset_ok hm0 (i := 0) (j := 0) (by omega) (by omega)
    (F.fin (ecost ρ a b 0 0))
  refine ⟨c0, c1, h0, h1, hm1, ?_, ?_⟩
  · rw [hg1, if_pos (by simp)]
    simp [dp]
  · rw [hg1, if_neg (by omega), hg0, if_pos (by simp)]
    rfl

theorem warpedBand_run (hm : 1 ≤ a.length) (hn : 1 ≤ b.length)
    (h11 : ¬ (a.length = 1 ∧ b.length = 1)) (dropout : F ρ) :
    (warpedDistanceBand (r : Int) (fins a) (fins b) dropout).Ensures fun v =>
      v = eucNormDtw (lastCell ρ r a b) (len a) (len b) ∨
      (v = eucNormDtw F.pinf (len a) (len b) ∧
        RowAbove ρ r a b (eucInormDtw dropout (len a) (len b))) := by
  have hx0 := tsGet_fins (ρ := ρ) (l := a) (i := 0) hm
  have hy0 := tsGet_fins (ρ := ρ) (l := b) (i := 0) hn
  unfold warpedDistanceBand
  simp only
  have hne : ¬ (len (fins a : List (F ρ)) = 1 ∧ len (fins b : List (F ρ)) = 1) := by
    rw [len_fins, len_fins]; simp only [len]; omega
  rw [if_neg hne]
  obtain ⟨c0, c1, h0, h1, hmat, hget0, hcorner⟩ :=
    warpedBand_init (ρ := ρ) (a := a) (b := b) (r := r) hm hn h11
  rw [h0]
  simp only [Nat.cast_zero] at hx0 hy0
  simp only [Res.bind_ok, hx0, hy0, euc_fin]
  have h1' : mset c0 0 0 (F.fin (ed ρ (a.getD 0 0) (b.getD 0 0))) = .ok c1 := h1
  rw [h1']
  simp only [Res.bind_ok, len_fins]
  -- first column
  refine Res.Ensures.bind (forInt_ensures (fun i c => IsMat c a.length b.length ∧
      (∀ k : ℕ, k < a.length → (k : Int) < i → mget c k (0 : ℕ) = .ok (F.fin (dp ρ (ecost ρ a b) r k 0))) ∧
      (¬ (b.length = 1 ∧ ((a.length - 1 : ℕ) : Int) < i) →
        mget c (a.length - 1 : ℕ) (b.length - 1 : ℕ) = .ok F.pinf)) ?_ ?_ ?_) ?_
  · simp only [len]; omega
  · refine ⟨hmat, ?_, fun _ => hcorner⟩
    intro k _ hk
    obtain rfl : k = 0 := by omega
    exact hget0
  · rintro i c hi1 hi2 ⟨hm1, hcol, hcor⟩
    obtain ⟨k, rfl⟩ : ∃ k : ℕ, i = ((k + 1 : ℕ) : Int) := ⟨(i - 1).toNat, by omega⟩
    have hk : k + 1 < a.length := by simp only [len] at hi2; omega
    have ek : ((k + 1 : ℕ) : Int) - 1 = (k : ℕ) := by omega
    rw [ek]
    have hp := hcol k (by omega) (by omega)
    simp only [Nat.cast_zero] at hp
    rw [hp, tsGet_fins hk]
    simp only [Res.bind_ok, euc_fin, add_fin]
    obtain ⟨c', hs, hm', hg⟩ := mset_ok hm1 (i := k + 1) (j := 0) hk (by omega)
      (F.fin (ρ.f (dp ρ (ecost ρ a b) r k 0 + ed ρ (a.getD (k + 1) 0) (b.getD 0 0))))
    simp only [Nat.cast_zero] at hs
    rw [hs]
    simp only [Res.ensures_ok]
    refine ⟨hm', ?_, ?_⟩
    · intro p hp1 hp2
      rw [hg]
      by_cases h : p = k + 1
      · subst h
        rw [if_pos (by simp)]
        congr 2
        conv_rhs => unfold dp
        rfl
      · rw [if_neg (by omega)]
        exact hcol p hp1 (by omega)
    · intro h
      rw [hg, if_neg (by omega)]
      exact hcor (by omega)
  rintro c2 ⟨hm2, hcol2, hcor2⟩
  -- first row
  refine Res.Ensures.bind (forInt_ensures (fun i c => IsMat c a.length b.length ∧
      (∀ k : ℕ, k < a.length → k < 2 * r + 1 →
        mget c k (0 : ℕ) = .ok (F.fin (dp ρ (ecost ρ a b) r k 0))) ∧
      (∀ k : ℕ, k < b.length → (k : Int) < i → mget c (0 : ℕ) k = .ok (F.fin (dp ρ (ecost ρ a b) r 0 k))) ∧
      (¬ (b.length = 1 ∧ a.length - 1 < 2 * r + 1) →
        ¬ (a.length = 1 ∧ ((b.length - 1 : ℕ) : Int) < i) →
        mget c (a.length - 1 : ℕ) (b.length - 1 : ℕ) = .ok F.pinf)) ?_ ?_ ?_) ?_
  · simp only [len]; omega
  · refine ⟨hm2, ?_, ?_, ?_⟩
    · intro k hk1 hk2
      apply hcol2 k hk1
      simp only [len]; omega
    · intro k _ hk
      obtain rfl : k = 0 := by omega
      apply hcol2 0 hm
      simp only [len]; omega
    · intro h _
      apply hcor2
      simp only [len]; omega
  · rintro i c hi1 hi2 ⟨hm1, hcol, hrow, hcor⟩
    obtain ⟨k, rfl⟩ : ∃ k : ℕ, i = ((k + 1 : ℕ) : Int) := ⟨(i - 1).toNat, by omega⟩
    have hk : k + 1 < b.length := by simp only [len] at hi2; omega
    have ek : ((k + 1 : ℕ) : Int) - 1 = (k : ℕ) := by omega
    rw [ek]
    have hp := hrow k (by omega) (by omega)
    simp only [Nat.cast_zero] at hp
    rw [hp, tsGet_fins hk]
    simp only [Res.bind_ok, euc_fin, add_fin]
    obtain ⟨c', hs, hm', hg⟩ := mset_ok hm1 (i := 0) (j := k + 1) (by omega) hk
      (F.fin (ρ.f (dp ρ (ecost ρ a b) r 0 k + ed ρ (a.getD 0 0) (b.getD (k + 1) 0))))
    simp only [Nat.cast_zero] at hs
    rw [hs]
    simp only [Res.ensures_ok]
    refine ⟨hm', ?_, ?_, ?_⟩
    · intro p hp1 hp2
      rw [hg, if_neg (by omega)]
      exact hcol p hp1 hp2
    · intro p hp1 hp2
      rw [hg]
      by_cases h : p = k + 1
      · subst h
        rw [if_pos (by simp)]
        congr 2
        conv_rhs => unfold dp
        rfl
      · rw [if_neg (by omega)]
        exact hrow p hp1 (by omega)
    · intro h h'
      rw [hg, if_neg (by omega)]
      exact hcor h (by omega)
  rintro c3 ⟨hm3, hcol3, hrow3, hcor3⟩
  have hstart : Filled ρ (ecost ρ a b) r a.length b.length 1 0 c3 := by
    refine ⟨hm3, ?_, hcol3, ?_, ?_⟩
    · intro i j hi hj hb hlt
      obtain rfl : i = 0 := by omega
      apply hrow3 j hj
      simp only [len]
      unfold inB at hb
      omega
    · intro j hj hj2
      apply hrow3 j hj
      simp only [len]; omega
    · intro _ h2 h3
      apply hcor3 h3
      simp only [len]; omega
  -- main loop
  refine Res.Ensures.bind (forBrk_ensures
    (fun i s => Filled ρ (ecost ρ a b) r a.length b.length i.toNat 0 s.1 ∧ s.2 = false)
    (fun s => s.2 = true ∧ RowAbove ρ r a b (eucInormDtw dropout (len a) (len b))) ?_ ?_ ?_) ?_
  · simp only [len]; omega
  · exact ⟨hstart, rfl⟩
  · rintro i ⟨c, dr⟩ hi1 hi2 ⟨hf, hdr⟩
    obtain ⟨k, rfl⟩ := Int.eq_ofNat_of_zero_le (show 0 ≤ i by omega)
    simp only [Int.toNat_natCast] at hf hdr
    subst hdr
    have hk : k < a.length := by simp only [len] at hi2; omega
    refine Res.Ensures.mono (warpedRow_spec (by omega) hk hn hf) ?_
    rintro (⟨c', d'⟩ | ⟨c', d'⟩)
    · rintro ⟨h1, h2⟩
      have e1 : ((k : Int) + 1).toNat = k + 1 := by omega
      rw [e1]
      exact ⟨h1, h2⟩
    · rintro ⟨h1, h2, h3⟩
      exact ⟨h1, h2, k, by omega, hk, h3⟩
  rintro ⟨c4, dr⟩ (⟨hf, hdr⟩ | ⟨hdr, habove⟩)
  · simp only at hf hdr
    subst hdr
    have e1 : len a - 1 = ((a.length - 1 : ℕ) : Int) := by simp only [len]; omega
    have e2 : len b - 1 = ((b.length - 1 : ℕ) : Int) := by simp only [len]; omega
    have e3 : (len a).toNat = a.length := by simp [len]
    rw [e3] at hf
    have hlast : mget c4 (len a - 1) (len b - 1) = .ok (lastCell ρ r a b) := by
      rw [e1, e2]
      unfold lastCell
      by_cases hb : inB r (a.length - 1) (b.length - 1)
      · rw [if_pos (Or.inl hb)]
        exact hf.rows _ _ (by omega) (by omega) hb (by omega)
      · by_cases h2 : a.length = 1 ∧ b.length - 1 < 2 * r + 1
        · rw [if_pos (Or.inr (Or.inl h2))]
          have := hf.row0 (b.length - 1) (by omega) h2.2
          have e : a.length - 1 = 0 := by omega
          rw [e]
          exact this
        · by_cases h3 : b.length = 1 ∧ a.length - 1 < 2 * r + 1
          · rw [if_pos (Or.inr (Or.inr h3))]
            have := hf.col0 (a.length - 1) (by omega) h3.2
            have e : b.length - 1 = 0 := by omega
            rw [e]
            exact this
          · rw [if_neg (by tauto)]
            exact hf.corner hb h2 h3
    simp only [Bool.false_eq_true, if_false, hlast, Res.bind_ok, Res.pure_eq, Res.ensures_ok]
    exact Or.inl trivial
  · simp only at hdr
    subst hdr
    simp only [if_true, Res.bind_ok, Res.pure_eq, inf_F, Res.ensures_ok]
    exact Or.inr ⟨trivial, habove⟩

end code

end Onex
