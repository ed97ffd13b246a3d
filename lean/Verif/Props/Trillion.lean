import Verif.Proofs.Trillion

/-!
# C49: the rolling-array DTW of the UCR suite

`dtw` (src/lib/trillionDTW.cpp:172-242) keeps two rows of the cost matrix and uses `1e20` where no cell exists. It is the banded
DTW as long as that value does not exceed `1e20`; `C49_huge_counterexample` shows that it is not beyond.
-/

namespace Onex

open Spec DataT

variable {r : ℕ} {A B cb : List ℝ}

/-- C49, in exact arithmetic and for a least cost of at most `1e20`: with nothing to beat, the function returns the least cost of a
warping path. -/
theorem C49_value_partial (hAB : A.length = B.length) (h1 : 1 ≤ A.length) (hc : A.length ≤ cb.length) (L : ℝ)
    (hL : IsLeast (warpCosts r A B) L) (hbig : L ≤ 10 ^ 20) :
    dtw (fins A) (fins B) (fins cb) A.length r (F.pinf : F Rounding.exact) = .ok (F.fin L) := by
  obtain ⟨v, hv, h⟩ := dtw_spec (ρ := Rounding.exact) (r := r) rfl hAB.symm hc h1 F.pinf
  rw [hv]
  have hb : inB r (A.length - 1) (B.length - 1) := by unfold inB; omega
  have hd := dp_isLeast (r := r) A B hb
  rcases h with rfl | ⟨i, mc, _, rfl, h, _⟩
  · congr 2
    have e : dp Rounding.exact (ecost Rounding.exact A B) r (A.length - 1) (B.length - 1) = L := hd.unique hL
    have u := cdp_le_dp (ρ := Rounding.exact) (e := ecost Rounding.exact A B) (bd := big) _ _ hb
    have l := le_cdp (ρ := Rounding.exact) (bd := big) (ecost_ok A B) rfl _ _ hb
    rw [e] at u l
    rw [min_eq_left (by unfold big; exact hbig)] at l
    rw [← hAB] at u l
    exact le_antisymm u l
  · rw [le_iff] at h
    simp [F.Lt, F.Eqv] at h

/-- C49, in exact arithmetic, with any best value so far and any valid array of bounds: the function returns the least cost, or it
abandons, and then what it returns is at least the best value so far and no more than the least cost. -/
theorem C49_abandon_partial (hAB : A.length = B.length) (h1 : 1 ≤ A.length) (hc : A.length ≤ cb.length) (hcb : ValidCb r A B cb)
    (L : ℝ) (hL : IsLeast (warpCosts r A B) L) (hbig : L ≤ 10 ^ 20) (bsf : F Rounding.exact) :
    ∃ v, dtw (fins A) (fins B) (fins cb) A.length r bsf = .ok (F.fin v) ∧
      (v = L ∨ le bsf (F.fin v) = true ∧ v ≤ L) := by
  obtain ⟨v, hv, h⟩ := dtw_spec (ρ := Rounding.exact) (r := r) rfl hAB.symm hc h1 bsf
  have hb : inB r (A.length - 1) (B.length - 1) := by unfold inB; omega
  have hd := dp_isLeast (r := r) A B hb
  rcases h with rfl | h
  · refine ⟨_, hv, Or.inl ?_⟩
    have e : dp Rounding.exact (ecost Rounding.exact A B) r (A.length - 1) (B.length - 1) = L := hd.unique hL
    have u := cdp_le_dp (ρ := Rounding.exact) (e := ecost Rounding.exact A B) (bd := big) _ _ hb
    have l := le_cdp (ρ := Rounding.exact) (bd := big) (ecost_ok A B) rfl _ _ hb
    rw [e] at u l
    rw [min_eq_left (by unfold big; exact hbig)] at l
    rw [← hAB] at u l
    exact le_antisymm u l
  · obtain ⟨p, hp, hpc⟩ := hL.1
    obtain ⟨x, rfl, hx⟩ := abandoned_le hAB hcb h hp
    obtain ⟨_, _, _, _, hbs, _⟩ := h
    exact ⟨x, hv, Or.inr ⟨hbs, hpc ▸ hx⟩⟩

/-- So the search that keeps a candidate only if the result is below the best so far never loses one: a candidate whose least cost
is below the best so far is reported with exactly that cost. -/
theorem C49_keeps_better (hAB : A.length = B.length) (h1 : 1 ≤ A.length) (hc : A.length ≤ cb.length) (hcb : ValidCb r A B cb)
    (L : ℝ) (hL : IsLeast (warpCosts r A B) L) (hbig : L ≤ 10 ^ 20) (bsf : ℝ) (hlt : L < bsf) :
    dtw (fins A) (fins B) (fins cb) A.length r (F.fin bsf : F Rounding.exact) = .ok (F.fin L) := by
  obtain ⟨v, hv, rfl | ⟨h, h'⟩⟩ := C49_abandon_partial hAB h1 hc hcb L hL hbig (F.fin bsf)
  · exact hv
  · rw [le_iff] at h
    simp [F.Lt, F.Eqv] at h
    rcases h with h | h <;> linarith

/-- C49, as the search uses it: for every best value up to `1e20` and however large the least cost is, the function tells whether the
least cost is below the best value, and if so returns it. -/
theorem C49_decides (hAB : A.length = B.length) (h1 : 1 ≤ A.length) (hc : A.length ≤ cb.length) (hcb : ValidCb r A B cb)
    (L : ℝ) (hL : IsLeast (warpCosts r A B) L) (bsf : ℝ) (hb : bsf ≤ 10 ^ 20) :
    ∃ v, dtw (fins A) (fins B) (fins cb) A.length r (F.fin bsf : F Rounding.exact) = .ok (F.fin v) ∧
      (L < bsf → v = L) ∧ (bsf ≤ L → bsf ≤ v) :=
  dtw_decides hAB h1 hc hcb hL hb

/-- And a candidate that is not better is never reported as better. -/
theorem C49_rejects_worse (hAB : A.length = B.length) (h1 : 1 ≤ A.length) (hc : A.length ≤ cb.length) (hcb : ValidCb r A B cb)
    (L : ℝ) (hL : IsLeast (warpCosts r A B) L) (hbig : L ≤ 10 ^ 20) (bsf : ℝ) (hle : bsf ≤ L) :
    ∃ v, dtw (fins A) (fins B) (fins cb) A.length r (F.fin bsf : F Rounding.exact) = .ok (F.fin v) ∧ bsf ≤ v := by
  obtain ⟨v, hv, rfl | ⟨h, h'⟩⟩ := C49_abandon_partial hAB h1 hc hcb L hL hbig (F.fin bsf)
  · exact ⟨_, hv, hle⟩
  · refine ⟨_, hv, ?_⟩
    rw [le_iff] at h
    simp [F.Lt, F.Eqv] at h
    rcases h with h | h <;> linarith

/-- Beyond `1e20` the value is wrong: here every warping path costs at least `9e20`, and the function returns `1e20`. -/
theorem C49_huge_counterexample :
    dtw (fins [0, 0]) (fins [3 * 10 ^ 10, 0]) (fins [0, 0]) 2 1 (F.pinf : F Rounding.exact) = .ok (F.fin (10 ^ 20)) ∧
    IsLeast (warpCosts 1 [0, 0] [3 * 10 ^ 10, 0]) (9 * 10 ^ 20) := by
  constructor
  · obtain ⟨v, hv, h⟩ := dtw_spec (ρ := Rounding.exact) (r := 1) (m := 2) (A := [0, 0]) (B := [3 * 10 ^ 10, 0]) (cb := [0, 0])
      rfl rfl (by simp) (by omega) F.pinf
    have e : ((2 : ℕ) : Int) = 2 ∧ ((1 : ℕ) : Int) = 1 := ⟨rfl, rfl⟩
    rw [e.1, e.2] at hv
    rw [hv]
    rcases h with rfl | ⟨i, mc, _, rfl, h, _⟩
    · congr 2
      norm_num [cdp, ecost, ed, inB, big, Rounding.exact]
    · rw [le_iff] at h
      simp [F.Lt, F.Eqv] at h
  · have := dp_isLeast (r := 1) [0, 0] [3 * 10 ^ 10, 0] (by simp [inB])
    norm_num [dp, ecost, ed, inB, Rounding.exact] at this ⊢
    exact this

/-- The hypotheses are met, for instance, by zero bounds. -/
example : ValidCb 1 [0, 1, 2, 5] [0, 0, 2, 4] [0, 0, 0, 0] ∧
    dtw (fins [0, 1, 2, 5]) (fins [0, 0, 2, 4]) (fins [0, 0, 0, 0]) 4 1 (F.fin 3 : F Rounding.exact) = .ok (F.fin 2) := by
  have hz : ValidCb 1 [0, 1, 2, 5] [0, 0, 2, 4] [0, 0, 0, 0] := by
    intro i hi p _
    have : i + 1 + 1 < 4 := hi
    have e : ([0, 0, 0, 0] : List ℝ).getD (i + 1 + 1) 0 = 0 := by
      rcases i with _ | _ | i
      · rfl
      · rfl
      · omega
    rw [e]
    exact List.sum_nonneg (by
      intro x hx
      obtain ⟨q, _, rfl⟩ := List.mem_map.mp hx
      exact sq_nonneg _)
  refine ⟨hz, ?_⟩
  have hL : IsLeast (warpCosts 1 [0, 1, 2, 5] [0, 0, 2, 4]) 2 := by
    have := dp_isLeast (r := 1) [0, 1, 2, 5] [0, 0, 2, 4] (by simp [inB])
    norm_num [dp, ecost, ed, inB, Rounding.exact] at this
    exact this
  exact C49_keeps_better (r := 1) (A := [0, 1, 2, 5]) (B := [0, 0, 2, 4]) (cb := [0, 0, 0, 0]) rfl (by simp) (by simp) hz 2 hL
    (by norm_num) 3 (by norm_num)

end Onex
