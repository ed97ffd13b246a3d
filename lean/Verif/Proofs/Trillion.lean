import Verif.Model.Trillion
import Verif.Proofs.Kim

/-!
# The rolling-array DTW
-/

namespace Onex

open Spec DataT

variable {ρ : Rounding} {e : ℕ → ℕ → ℝ} {r m : ℕ} {bd : ℝ}

/-- The recurrence the two arrays compute: `bd` stands in for cells outside the matrix or the band. -/
noncomputable def cdp (ρ : Rounding) (e : ℕ → ℕ → ℝ) (r : ℕ) (bd : ℝ) : ℕ → ℕ → ℝ
  | 0, 0 => e 0 0
  | i + 1, 0 => ρ.f (min (min (if inB r i 0 then cdp ρ e r bd i 0 else bd) bd) bd + e (i + 1) 0)
  | 0, j + 1 => ρ.f (min (min bd (if inB r 0 j then cdp ρ e r bd 0 j else bd)) bd + e 0 (j + 1))
  | i + 1, j + 1 => ρ.f (min (min (if inB r i (j + 1) then cdp ρ e r bd i (j + 1) else bd)
      (if inB r (i + 1) j then cdp ρ e r bd (i + 1) j else bd)) (cdp ρ e r bd i j) + e (i + 1) (j + 1))

/-- It never exceeds the recurrence proper, -/
theorem cdp_le_dp : ∀ i j : ℕ, inB r i j → cdp ρ e r bd i j ≤ dp ρ e r i j
  | 0, 0, _ => by simp [cdp, dp]
  | i + 1, 0, hb => by
    have hb' : inB r i 0 := by unfold inB at *; omega
    have ih := cdp_le_dp i 0 hb'
    unfold cdp dp
    apply ρ.mono
    rw [if_pos hb']
    have := min_le_left (min (cdp ρ e r bd i 0) bd) bd
    have := min_le_left (cdp ρ e r bd i 0) bd
    linarith
  | 0, j + 1, hb => by
    have hb' : inB r 0 j := by unfold inB at *; omega
    have ih := cdp_le_dp 0 j hb'
    unfold cdp dp
    apply ρ.mono
    rw [if_pos hb']
    have := min_le_left (min bd (cdp ρ e r bd 0 j)) bd
    have := min_le_right bd (cdp ρ e r bd 0 j)
    linarith
  | i + 1, j + 1, hb => by
    have hd : inB r i j := by unfold inB at *; omega
    have ihd := cdp_le_dp i j hd
    rcases dp_succ_cases (ρ := ρ) (e := e) (r := r) i j with h | ⟨h1, h⟩ | ⟨h1, h⟩
    · rw [h]
      unfold cdp
      apply ρ.mono
      have := min_le_right (min (if inB r i (j + 1) then cdp ρ e r bd i (j + 1) else bd)
        (if inB r (i + 1) j then cdp ρ e r bd (i + 1) j else bd)) (cdp ρ e r bd i j)
      linarith
    · have ih := cdp_le_dp (i + 1) j h1
      rw [h]
      unfold cdp
      apply ρ.mono
      rw [if_pos h1]
      have h2 := min_le_left (min (if inB r i (j + 1) then cdp ρ e r bd i (j + 1) else bd)
        (cdp ρ e r bd (i + 1) j)) (cdp ρ e r bd i j)
      have h3 := min_le_right (if inB r i (j + 1) then cdp ρ e r bd i (j + 1) else bd) (cdp ρ e r bd (i + 1) j)
      linarith
    · have ih := cdp_le_dp i (j + 1) h1
      rw [h]
      unfold cdp
      apply ρ.mono
      rw [if_pos h1]
      have h2 := min_le_left (min (cdp ρ e r bd i (j + 1))
        (if inB r (i + 1) j then cdp ρ e r bd (i + 1) j else bd)) (cdp ρ e r bd i j)
      have h3 := min_le_left (cdp ρ e r bd i (j + 1)) (if inB r (i + 1) j then cdp ρ e r bd (i + 1) j else bd)
      linarith

/-- and it falls short of it only above `bd`. -/
theorem le_cdp (he : CostOk ρ e) (hbd : ρ.f bd = bd) : ∀ i j : ℕ, inB r i j →
    min (dp ρ e r i j) bd ≤ cdp ρ e r bd i j
  | 0, 0, _ => by simp [cdp, dp]
  | i + 1, 0, hb => by
    have hb' : inB r i 0 := by unfold inB at *; omega
    have ih := le_cdp he hbd i 0 hb'
    unfold cdp dp
    rw [if_pos hb']
    rcases min_choice (min (cdp ρ e r bd i 0) bd) bd with h | h
    · rw [h]
      rcases min_choice (cdp ρ e r bd i 0) bd with h | h
      · rw [h]
        rcases min_le_iff.mp ih with h | h
        · exact (min_le_left _ _).trans (ρ.mono (by linarith))
        · exact (min_le_right _ _).trans (round_le he hbd h _ _)
      · rw [h]
        exact (min_le_right _ _).trans (le_round_add he hbd _ _)
    · rw [h]
      exact (min_le_right _ _).trans (le_round_add he hbd _ _)
  | 0, j + 1, hb => by
    have hb' : inB r 0 j := by unfold inB at *; omega
    have ih := le_cdp he hbd 0 j hb'
    unfold cdp dp
    rw [if_pos hb']
    rcases min_choice (min bd (cdp ρ e r bd 0 j)) bd with h | h
    · rw [h]
      rcases min_choice bd (cdp ρ e r bd 0 j) with h | h
      · rw [h]
        exact (min_le_right _ _).trans (le_round_add he hbd _ _)
      · rw [h]
        rcases min_le_iff.mp ih with h | h
        · exact (min_le_left _ _).trans (ρ.mono (by linarith))
        · exact (min_le_right _ _).trans (round_le he hbd h _ _)
    · rw [h]
      exact (min_le_right _ _).trans (le_round_add he hbd _ _)
  | i + 1, j + 1, hb => by
    have hd : inB r i j := by unfold inB at *; omega
    have key : ∀ x : ℝ, (dp ρ e r (i + 1) (j + 1) ≤ ρ.f (x + e (i + 1) (j + 1)) ∨ bd ≤ x) →
        min (dp ρ e r (i + 1) (j + 1)) bd ≤ ρ.f (x + e (i + 1) (j + 1)) := by
      rintro x (h | h)
      · exact (min_le_left _ _).trans h
      · exact (min_le_right _ _).trans (round_le he hbd h _ _)
    have ihd := le_cdp he hbd i j hd
    rw [cdp]
    apply key
    rcases min_choice (min (if inB r i (j + 1) then cdp ρ e r bd i (j + 1) else bd)
      (if inB r (i + 1) j then cdp ρ e r bd (i + 1) j else bd)) (cdp ρ e r bd i j) with h | h
    · rw [h]
      rcases min_choice (if inB r i (j + 1) then cdp ρ e r bd i (j + 1) else bd)
        (if inB r (i + 1) j then cdp ρ e r bd (i + 1) j else bd) with h | h
      · rw [h]
        split
        · rename_i h1
          rcases min_le_iff.mp (le_cdp he hbd i (j + 1) h1) with h | h
          · exact Or.inl ((dp_le_up i j h1).trans (ρ.mono (by linarith)))
          · exact Or.inr h
        · exact Or.inr le_rfl
      · rw [h]
        split
        · rename_i h1
          rcases min_le_iff.mp (le_cdp he hbd (i + 1) j h1) with h | h
          · exact Or.inl ((dp_le_left i j h1).trans (ρ.mono (by linarith)))
          · exact Or.inr h
        · exact Or.inr le_rfl
    · rw [h]
      rcases min_le_iff.mp ihd with h | h
      · exact Or.inl ((dp_le_diag i j).trans (ρ.mono (by linarith)))
      · exact Or.inr h

/-! ## One cell -/

theorem minM_fin (x y : ℝ) : minM (F.fin x : F ρ) (F.fin y) = F.fin (min x y) := by
  unfold minM
  by_cases h : x < y
  · rw [if_pos ((lt_fin x y).mpr h), min_eq_left h.le]
  · rw [if_neg (fun h' => h ((lt_fin x y).mp h')), min_eq_right (not_lt.mp h)]

theorem distM_fin (x y : ℝ) : distM (F.fin x : F ρ) (F.fin y) = F.fin (ed ρ x y) := by
  simp [distM, ed]

theorem inf_fin : (infTrillion : F ρ) = F.fin (10 ^ 20) := by
  simp only [infTrillion, ofInt_F]
  norm_num

/-- The big number in the place of infinity. -/
noncomputable abbrev big : ℝ := 10 ^ 20

variable {A B : List ℝ}

/-- Row `i` of the recurrence is stored in the array up to (not including) column `j`. -/
def RowIn (ρ : Rounding) (A B : List ℝ) (r m i : ℕ) (j : Int) (l : List (F ρ)) : Prop :=
  l.length = 2 * r + 1 ∧ ∀ j' : ℕ, inB r i j' → j' < m → (j' : Int) < j →
    vget l ((j' : Int) - i + r) = .ok (F.fin (cdp ρ (ecost ρ A B) r big i j'))

/-- State of the inner loop before column `j`. -/
structure CellInv (ρ : Rounding) (A B : List ℝ) (r m i : ℕ) (j : Int) (q : DtwInner (F ρ)) : Prop where
  k : q.k = j - i + r
  row : RowIn ρ A B r m i j q.cost
  least : ∃ mc, q.minCost = F.fin mc ∧ ∀ j' : ℕ, inB r i j' → j' < m → (j' : Int) < j →
    mc ≤ cdp ρ (ecost ρ A B) r big i j'

theorem rowIn_len {i : ℕ} {j : Int} {l : List (F ρ)} (h : RowIn ρ A B r m i j l) : len l = 2 * r + 1 := by
  have := h.1
  simp only [len]
  omega

/-- Storing the next cell of the row. -/
theorem rowIn_set {i j : ℕ} {l : List (F ρ)} (h : RowIn ρ A B r m i j l) (hb : inB r i j) :
    ∃ l', vset l ((j : Int) - i + r) (F.fin (cdp ρ (ecost ρ A B) r big i j)) = .ok l' ∧ RowIn ρ A B r m i ((j : Int) + 1) l' ∧
      vget l' ((j : Int) - i + r) = .ok (F.fin (cdp ρ (ecost ρ A B) r big i j)) := by
  have hl := rowIn_len h
  have hk := vset_ok (l := l) (i := (j : Int) - i + r) (F.fin (cdp ρ (ecost ρ A B) r big i j))
    (by unfold inB at hb; omega) (by unfold inB at hb; omega)
  refine ⟨_, hk, ⟨by rw [vset_len hk]; exact h.1, ?_⟩, ?_⟩
  · intro j' hb' hm' hj'
    rw [vget_vset hk]
    by_cases e : j' = j
    · subst e
      rw [if_pos rfl]
    · rw [if_neg (by omega)]
      exact h.2 j' hb' hm' (by omega)
  · rw [vget_vset hk, if_pos rfl]

theorem cellInv_next {i j : ℕ} {q : DtwInner (F ρ)} (h : CellInv ρ A B r m i j q) (hb : inB r i j)
    {l : List (F ρ)} (hl : RowIn ρ A B r m i ((j : Int) + 1) l) {mc : F ρ}
    (hmc : mc = if lt (F.fin (cdp ρ (ecost ρ A B) r big i j)) q.minCost then F.fin (cdp ρ (ecost ρ A B) r big i j) else q.minCost) :
    CellInv ρ A B r m i ((j : Int) + 1) { cost := l, minCost := mc, k := q.k + 1 } := by
  obtain ⟨x, hx, hle⟩ := h.least
  refine ⟨by dsimp only; rw [h.k]; omega, hl, ?_⟩
  dsimp only
  rw [hx] at hmc
  by_cases hlt : cdp ρ (ecost ρ A B) r big i j < x
  · rw [if_pos ((lt_fin _ _).mpr hlt)] at hmc
    refine ⟨_, hmc, ?_⟩
    intro j' h1 h2 h3
    by_cases e : j' = j
    · subst e
      exact le_rfl
    · exact hlt.le.trans (hle j' h1 h2 (by omega))
  · rw [if_neg (fun h' => hlt ((lt_fin _ _).mp h'))] at hmc
    refine ⟨_, hmc, ?_⟩
    intro j' h1 h2 h3
    by_cases e : j' = j
    · subst e
      exact not_lt.mp hlt
    · exact hle j' h1 h2 (by omega)

theorem dtwCell_spec (hA : A.length = m) (hB : B.length = m) {i j : ℕ} (hi : i < m) (hj : j < m) (hb : inB r i j)
    {prev : List (F ρ)} (hp : 1 ≤ i → RowIn ρ A B r m (i - 1) m prev) {q : DtwInner (F ρ)}
    (hq : CellInv ρ A B r m i j q) :
    (dtwCell (fins A) (fins B) r i prev j q).Ensures (CellInv ρ A B r m i ((j : Int) + 1)) := by
  unfold dtwCell
  have hk := hq.k
  by_cases h00 : i = 0 ∧ j = 0
  · obtain ⟨rfl, rfl⟩ := h00
    rw [if_pos (by simp)]
    obtain ⟨l', e1, e2, e3⟩ := rowIn_set hq.row hb
    have hv : distM (F.fin (A.getD 0 0) : F ρ) (F.fin (B.getD 0 0)) = F.fin (cdp ρ (ecost ρ A B) r big 0 0) := by
      rw [distM_fin]
      simp [cdp, ecost]
    have g1 : vget (fins A : List (F ρ)) 0 = .ok (F.fin (A.getD 0 0)) := vget_fins (i := 0) (by omega)
    have g2 : vget (fins B : List (F ρ)) 0 = .ok (F.fin (B.getD 0 0)) := vget_fins (i := 0) (by omega)
    rw [g1, g2]
    simp only [Res.bind_ok]
    rw [hv, hk, e1]
    simp only [Res.bind_ok]
    rw [e3]
    simp only [Res.bind_ok, Res.pure_eq, Res.ensures_ok]
    refine ⟨by simp [add_comm], e2, _, rfl, ?_⟩
    intro j' h1 h2 h3
    have : j' = 0 := by omega
    subst this
    exact le_rfl
  · rw [if_neg (by omega)]
    have hy : (if (j : Int) - 1 < 0 ∨ q.k - 1 < 0 then (pure infTrillion : Res (F ρ)) else vget q.cost (q.k - 1)) =
        .ok (F.fin (if 1 ≤ j ∧ inB r i (j - 1) then cdp ρ (ecost ρ A B) r big i (j - 1) else big)) := by
      by_cases h : 1 ≤ j ∧ inB r i (j - 1)
      · rw [if_pos h, if_neg (by unfold inB at h; omega)]
        have := hq.row.2 (j - 1) h.2 (by omega) (by omega)
        rw [← this]
        congr 1
        omega
      · rw [if_neg h, if_pos (by unfold inB at h hb; omega), inf_fin]
        rfl
    have hx : (if (i : Int) - 1 < 0 ∨ q.k + 1 > 2 * (r : Int) then (pure infTrillion : Res (F ρ)) else vget prev (q.k + 1)) =
        .ok (F.fin (if 1 ≤ i ∧ inB r (i - 1) j then cdp ρ (ecost ρ A B) r big (i - 1) j else big)) := by
      by_cases h : 1 ≤ i ∧ inB r (i - 1) j
      · rw [if_pos h, if_neg (by unfold inB at h; omega)]
        have := (hp h.1).2 j h.2 hj (by omega)
        rw [← this]
        congr 1
        omega
      · rw [if_neg h, if_pos (by unfold inB at h hb; omega), inf_fin]
        rfl
    have hz : (if (i : Int) - 1 < 0 ∨ (j : Int) - 1 < 0 then (pure infTrillion : Res (F ρ)) else vget prev q.k) =
        .ok (F.fin (if 1 ≤ i ∧ 1 ≤ j then cdp ρ (ecost ρ A B) r big (i - 1) (j - 1) else big)) := by
      by_cases h : 1 ≤ i ∧ 1 ≤ j
      · rw [if_pos h, if_neg (by omega)]
        have := (hp h.1).2 (j - 1) (by unfold inB at *; omega) (by omega) (by omega)
        rw [← this]
        congr 1
        omega
      · rw [if_neg h, if_pos (by omega), inf_fin]
        rfl
    rw [Res.ite_bind_eq hy]
    dsimp only
    rw [Res.ite_bind_eq hx]
    rw [Res.ite_bind_eq hz]
    rw [vget_fins (by omega), vget_fins (by omega)]
    simp only [Res.bind_ok]
    have hv : add (minM (minM (F.fin (if 1 ≤ i ∧ inB r (i - 1) j then cdp ρ (ecost ρ A B) r big (i - 1) j else big) : F ρ)
        (F.fin (if 1 ≤ j ∧ inB r i (j - 1) then cdp ρ (ecost ρ A B) r big i (j - 1) else big)))
        (F.fin (if 1 ≤ i ∧ 1 ≤ j then cdp ρ (ecost ρ A B) r big (i - 1) (j - 1) else big)))
        (distM (F.fin (A.getD i 0)) (F.fin (B.getD j 0))) = F.fin (cdp ρ (ecost ρ A B) r big i j) := by
      rw [minM_fin, minM_fin, distM_fin, add_fin]
      rcases i with _ | i
      · rcases j with _ | j
        · simp at h00
        · simp [cdp, ecost]
      · rcases j with _ | j
        · simp [cdp, ecost]
        · simp [cdp, ecost]
    rw [hv]
    obtain ⟨l', e1, e2, e3⟩ := rowIn_set hq.row hb
    rw [hk, e1]
    simp only [Res.bind_ok, Res.pure_eq, Res.ensures_ok]
    rw [← hk]
    exact cellInv_next hq hb e2 rfl

/-! ## One row and the whole function -/

variable {cb : List ℝ}

/-- State of the outer loop before row `i`. -/
structure RowsInv (ρ : Rounding) (A B : List ℝ) (r m i : ℕ) (s : DtwOuter (F ρ)) : Prop where
  none : s.ret = none
  cost : s.cost.length = 2 * r + 1
  prevLen : s.prev.length = 2 * r + 1
  prev : 1 ≤ i → RowIn ρ A B r m (i - 1) m s.prev
  k : i = m → s.k = r + 1

/-- The outcome of abandoning at row `i`. -/
def Abandoned (ρ : Rounding) (A B cb : List ℝ) (r m : ℕ) (bsf : F ρ) (v : F ρ) : Prop :=
  ∃ (i : ℕ) (mc : ℝ), i + r + 1 < m ∧ v = F.fin (ρ.f (mc + cb.getD (i + r + 1) 0)) ∧ le bsf v = true ∧
    ∀ j, inB r i j → j < m → mc ≤ cdp ρ (ecost ρ A B) r big i j

theorem dtwRow_spec (hA : A.length = m) (hB : B.length = m) (hc : m ≤ cb.length) {i : ℕ} (hi : i < m) (bsf : F ρ)
    {s : DtwOuter (F ρ)} (hs : RowsInv ρ A B r m i s) :
    (dtwRow (fins A) (fins B) (fins cb) m r bsf i s).Ensures fun
      | .next s' => RowsInv ρ A B r m (i + 1) s'
      | .brk s' => ∃ v, s'.ret = some v ∧ Abandoned ρ A B cb r m bsf v := by
  unfold dtwRow
  have hq : (forInt (Max.max 0 ((i : Int) - r)) (Min.min ((m : Int) - 1) ((i : Int) + r) + 1)
      { cost := s.cost, minCost := infTrillion, k := Max.max 0 ((r : Int) - i) }
      (dtwCell (fins A) (fins B) r i s.prev)).Ensures
        (CellInv ρ A B r m i (Min.min ((m : Int) - 1) ((i : Int) + r) + 1)) := by
    refine forInt_ensures (CellInv ρ A B r m i) (by omega) ?_ ?_
    · refine ⟨by dsimp only; omega, ⟨hs.cost, ?_⟩, 10 ^ 20, inf_fin, ?_⟩
      · intro j' h1 h2 h3
        unfold inB at h1
        omega
      · intro j' h1 h2 h3
        unfold inB at h1
        omega
    · intro j q h1 h2 hq
      obtain ⟨j, rfl⟩ : ∃ k : ℕ, j = k := ⟨j.toNat, by omega⟩
      exact dtwCell_spec hA hB hi (by omega) (by unfold inB; omega) hs.prev hq
  refine Res.Ensures.bind hq ?_
  intro q hq
  obtain ⟨mc, hmc, hle⟩ := hq.least
  have hrow : RowIn ρ A B r m i m q.cost :=
    ⟨hq.row.1, fun j' h1 h2 _ => hq.row.2 j' h1 h2 (by unfold inB at h1; omega)⟩
  have hnext : RowsInv ρ A B r m (i + 1) { cost := s.prev, prev := q.cost, k := q.k, ret := none } := by
    refine ⟨rfl, hs.prevLen, hq.row.1, fun _ => by simpa using hrow, ?_⟩
    intro hm
    dsimp only
    rw [hq.k]
    omega
  by_cases hr : (i : Int) + r < (m : Int) - 1
  · have hcb : vget (fins cb : List (F ρ)) ((i : Int) + r + 1) = .ok (F.fin (cb.getD (i + r + 1) 0)) := by
      have : (i : Int) + r + 1 = ((i + r + 1 : ℕ) : Int) := by push_cast; rfl
      rw [this]
      exact vget_fins (by omega)
    rw [if_pos hr, hcb]
    simp only [Res.bind_ok]
    rw [hmc, add_fin]
    by_cases hg : ge (F.fin (ρ.f (mc + cb.getD (i + r + 1) 0))) bsf = true
    · rw [if_pos hg]
      simp only [Res.pure_eq, Res.bind_ok, Res.ensures_ok]
      refine ⟨_, rfl, i, mc, by omega, rfl, hg, ?_⟩
      intro j h1 h2
      exact hle j h1 h2 (by unfold inB at h1; omega)
    · rw [if_neg hg]
      simp only [Res.pure_eq, Res.bind_ok, Res.ensures_ok]
      exact hnext
  · rw [if_neg hr]
    simp only [Res.pure_eq, Res.bind_ok, Res.ensures_ok]
    exact hnext

/-- The function returns the last cell of the recurrence, or abandons. -/
theorem dtw_spec (hA : A.length = m) (hB : B.length = m) (hc : m ≤ cb.length) (hm : 1 ≤ m) (bsf : F ρ) :
    (dtw (fins A) (fins B) (fins cb) m r bsf).Ensures fun v =>
      v = F.fin (cdp ρ (ecost ρ A B) r big (m - 1) (m - 1)) ∨ Abandoned ρ A B cb r m bsf v := by
  unfold dtw
  have hl : (List.replicate (2 * (r : Int) + 1).toNat (infTrillion : F ρ)).length = 2 * r + 1 := by
    rw [List.length_replicate]
    omega
  have h := forBrk_ensures (lo := 0) (hi := (m : Int))
    (s := ({ cost := List.replicate (2 * (r : Int) + 1).toNat infTrillion,
             prev := List.replicate (2 * (r : Int) + 1).toNat infTrillion, k := 0, ret := none } : DtwOuter (F ρ)))
    (body := dtwRow (fins A) (fins B) (fins cb) m r bsf)
    (fun i s => RowsInv ρ A B r m i.toNat s) (fun s => ∃ v, s.ret = some v ∧ Abandoned ρ A B cb r m bsf v) (by omega)
    ⟨rfl, hl, hl, fun h => by simp at h, fun h => by simp at h; omega⟩ (by
      intro j s h1 h2 hs
      obtain ⟨j, rfl⟩ : ∃ k : ℕ, j = k := ⟨j.toNat, by omega⟩
      have := dtwRow_spec hA hB hc (i := j) (by omega) bsf hs
      refine this.mono ?_
      intro x hx
      cases x with
      | next s' =>
        have e : ((j : Int) + 1).toNat = j + 1 := by omega
        dsimp only at hx ⊢
        rw [e]
        exact hx
      | brk s' => exact hx)
  refine Res.Ensures.bind h ?_
  rintro s (hs | ⟨v, hv, hab⟩)
  · rw [Int.toNat_natCast] at hs
    rw [hs.none]
    dsimp only
    have := (hs.prev hm).2 (m - 1) (by unfold inB; omega) (by omega) (by omega)
    rw [hs.k rfl]
    have e : (((m - 1 : ℕ) : Int) - ((m - 1 : ℕ) : Int) + r) = (r : Int) + 1 - 1 := by omega
    rw [e] at this
    exact ⟨_, this, Or.inl rfl⟩
  · rw [hv]
    exact Res.ensures_ok.mpr (Or.inr hab)

/-! ## Splitting a path after a row -/

theorem path_split {i : ℕ} : ∀ (p : List (ℕ × ℕ)) (M N : ℕ), IsWarpPath r M N p → i ≤ M →
    ∃ p1 p2 j, p = p1 ++ p2 ∧ IsWarpPath r i j p1 ∧ ∀ q ∈ p2, i < q.1 := by
  intro p
  induction h : p.length generalizing p with
  | zero =>
    intro M N hp _
    have : p = [] := List.length_eq_zero_iff.mp h
    subst this
    have := hp.head
    simp at this
  | succ n ih =>
    intro M N hp hi
    rcases Nat.lt_or_ge i M with hlt | hge
    · rcases warpPath_cases hp with ⟨rfl, rfl, rfl⟩ | ⟨p', i', j', rfl, hp', hs⟩
      · omega
      · have hi' : i ≤ i' := by
          rcases hs with hs | hs | hs <;> simp only [Prod.mk.injEq] at hs <;> omega
        obtain ⟨p1, p2, j, e, h1, h2⟩ := ih p' (by simpa using h) i' j' hp' hi'
        refine ⟨p1, p2 ++ [(M, N)], j, by rw [e, List.append_assoc], h1, ?_⟩
        intro q hq
        rcases List.mem_append.mp hq with hq | hq
        · exact h2 q hq
        · simp only [List.mem_singleton] at hq
          subst hq
          exact hlt
    · have : M = i := by omega
      subst this
      exact ⟨p, [], N, by simp, hp, by simp⟩

/-! ## Abandoning early -/

variable {cb : List ℝ}

theorem pathCost_append (A B : List ℝ) (p q : List (ℕ × ℕ)) : pathCost A B (p ++ q) = pathCost A B p + pathCost A B q := by
  simp [pathCost]

/-- The entries of a valid `cb` bound what remains after the abandoned row. -/
theorem abandoned_le (hAB : A.length = B.length) (hcb : ValidCb r A B cb) {bsf v : F Rounding.exact}
    (h : Abandoned Rounding.exact A B cb r A.length bsf v) {p : List (ℕ × ℕ)}
    (hp : IsWarpPath r (A.length - 1) (B.length - 1) p) : ∃ x, v = F.fin x ∧ x ≤ pathCost A B p := by
  obtain ⟨i, mc, hi, hv, _, hle⟩ := h
  refine ⟨_, hv, ?_⟩
  have hc := hcb i hi p hp
  obtain ⟨p1, p2, j, e, h1, h2⟩ := path_split (i := i) p _ _ hp (by omega)
  have hb : inB r i j := h1.band (i, j) (List.mem_of_getLast? h1.last)
  have hj : j < A.length := by
    have := path_le hp (i, j) (by rw [e]; exact List.mem_append_left _ (List.mem_of_getLast? h1.last))
    have := this.2
    dsimp only at this
    omega
  have hmc := hle j hb hj
  have hd := (cdp_le_dp (ρ := Rounding.exact) (e := ecost Rounding.exact A B) (bd := big) i j hb).trans
    (dp_le_path (ecost Rounding.exact A B) p1 i j h1)
  rw [gcost_ecost] at hd
  have hf : p.filter (fun q => decide (i < q.1)) = (p1.filter fun q => decide (i < q.1)) ++ p2 := by
    rw [e, List.filter_append]
    congr 1
    rw [List.filter_eq_self]
    intro q hq
    simpa using h2 q hq
  have hz : p1.filter (fun q => decide (i < q.1)) = [] := by
    rw [List.filter_eq_nil_iff]
    intro q hq
    have := (path_le h1 q hq).1
    simpa using this
  rw [hf, hz, List.nil_append] at hc
  rw [e, pathCost_append]
  show mc + cb.getD (i + r + 1) 0 ≤ _
  linarith

/-- With a valid array of bounds and a best value so far that is no more than the stand-in for infinity, the function reports exactly the
better candidates. -/
theorem dtw_decides (hAB : A.length = B.length) (h1 : 1 ≤ A.length) (hc : A.length ≤ cb.length) (hcb : ValidCb r A B cb)
    {L : ℝ} (hL : IsLeast (warpCosts r A B) L) {b : ℝ} (hb : b ≤ 10 ^ 20) :
    ∃ v, dtw (fins A) (fins B) (fins cb) A.length r (F.fin b : F Rounding.exact) = .ok (F.fin v) ∧
      (L < b → v = L) ∧ (b ≤ L → b ≤ v) := by
  obtain ⟨v, hv, h⟩ := dtw_spec (ρ := Rounding.exact) (r := r) rfl hAB.symm hc h1 (F.fin b)
  have hin : inB r (A.length - 1) (B.length - 1) := by unfold inB; omega
  have e : dp Rounding.exact (ecost Rounding.exact A B) r (A.length - 1) (B.length - 1) = L := (dp_isLeast (r := r) A B hin).unique hL
  rcases h with rfl | h
  · have u := cdp_le_dp (ρ := Rounding.exact) (e := ecost Rounding.exact A B) (bd := big) _ _ hin
    have l := le_cdp (ρ := Rounding.exact) (bd := big) (ecost_ok A B) rfl _ _ hin
    rw [e] at u l
    rw [← hAB] at u l
    refine ⟨_, hv, ?_, ?_⟩
    · intro hlt
      rw [min_eq_left (by unfold big; linarith)] at l
      exact le_antisymm u l
    · intro hle
      exact (le_min hle hb).trans l
  · obtain ⟨p, hp, hpc⟩ := hL.1
    obtain ⟨x, rfl, hx⟩ := abandoned_le hAB hcb h hp
    obtain ⟨_, _, _, _, hbs, _⟩ := h
    have hbx : b ≤ x := (le_fin b x).mp hbs
    refine ⟨x, hv, ?_, fun _ => hbx⟩
    intro hlt
    rw [hpc] at hx
    linarith

end Onex
