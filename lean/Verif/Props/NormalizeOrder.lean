import Verif.Props.NormalizeOdd
import Verif.Proofs.Save

/-!
# C21 for an even number of series of odd length
-/

namespace Onex
open DataT Spec

/-- A dataset holds one table. -/
theorem holds_same {ds : Dataset (F Rounding.exact)} {L : Nat} {R : List (List ℝ)} {g g' : ℝ → ℝ}
    (h : ds.Holds L (R.map fun r => fins (r.map g))) (h' : ds.Holds L (R.map fun r => fins (r.map g'))) {v : ℝ} (hv : v ∈ values R) :
    g v = g' v := by
  obtain ⟨r, hr, hv⟩ := hv
  obtain ⟨i, hi, rfl⟩ := List.getElem_of_mem hr
  obtain ⟨j, hj, rfl⟩ := List.getElem_of_mem hv
  have hL : R[i].length = L := by
    have := h.rows (fins (R[i].map g)) (List.mem_map.mpr ⟨_, hr, rfl⟩)
    simpa using this
  obtain ⟨b, hb, e⟩ := h.vget i j (by simpa using hi) (by omega)
  obtain ⟨b', hb', e'⟩ := h'.vget i j (by simpa using hi) (by omega)
  rw [hb, Option.some.injEq] at hb'
  subst hb'
  rw [e, Res.ok.injEq] at e'
  simpa [fins] using e'

/-- C21: normalising twice does the same as once, for every shape but an even number of series of one value. -/
theorem C21_idempotent_odd {ds : Dataset (F Rounding.exact)} {L : Nat} {R : List (List ℝ)} (h : ds.Holds L (R.map fins)) (h1 : 1 ≤ L)
    (h2 : L < 2 ^ 31) (hR : 1 ≤ R.length) (hshape : Even L ∨ Odd R.length ∨ 3 ≤ L) :
    ∃ (lo hi : ℝ) (ds1 ds2 : Dataset (F Rounding.exact)) (R1 : List (List ℝ)),
      ds.normalize = (.ok (F.fin lo, F.fin hi), ds1) ∧ ds1.Holds L (R1.map fins) ∧
      ds1.normalize = (.ok (F.fin 0, F.fin (if lo = hi then 0 else 1)), ds2) ∧ ds2.Holds L (R1.map fins) := by
  by_cases hpar : Even L ∨ Odd R.length
  · exact C21_idempotent h h1 h2 hR hpar
  rw [not_or, Nat.not_even_iff_odd, Nat.not_odd_iff_even] at hpar
  have h3 : 3 ≤ L := by
    rcases hshape with h | h | h
    · exact absurd h (Nat.not_even_iff_odd.mpr hpar.1)
    · exact absurd hpar.2 (Nat.not_even_iff_odd.mpr h)
    · exact h
  obtain ⟨lo, hi, ds1, g1, g2, g3, g4⟩ := normalize_odd h h3 h2 hR hpar.1 hpar.2
  have e : (R.map fun r => (fins (r.map (normVal Rounding.exact lo hi)) : List (F Rounding.exact))) =
      (R.map fun r => r.map (normVal Rounding.exact lo hi)).map fins := by simp
  rw [e] at g4
  obtain ⟨lo2, hi2, ds2, k1, k2, k3, k4⟩ := normalize_odd g4 h3 h2 (by simpa using hR) hpar.1 (by simpa using hpar.2)
  have e2 : (R.map fun r => r.map (normVal Rounding.exact lo hi)).map List.dropLast =
      (R.map List.dropLast).map fun r => r.map (normVal Rounding.exact lo hi) := by simp [Function.comp_def]
  rw [e2, values_map] at k2 k3
  have hle : lo ≤ hi := g2.2 g3.1
  have val : ∀ v, normVal Rounding.exact lo hi v = if lo = hi then (if lo = 0 then v else 0) else (v - lo) / (hi - lo) := by
    intro v
    simp only [normVal, Rounding.exact_f, sub_eq_zero]
    by_cases hlh : lo = hi
    · subst hlh
      simp
    · rw [if_neg (Ne.symm hlh), if_neg hlh]
  have vlo : normVal Rounding.exact lo hi lo = 0 := by
    rw [val]
    split_ifs with a b
    · exact b
    · rfl
    · simp
  have vhi : normVal Rounding.exact lo hi hi = if lo = hi then 0 else 1 := by
    rw [val]
    split_ifs with a b
    · rw [← a, b]
    · rfl
    · exact div_self (sub_ne_zero.mpr (Ne.symm a))
  have hmono : Monotone (normVal Rounding.exact lo hi) := by
    intro v w hvw
    rw [val, val]
    split_ifs
    · exact hvw
    · exact le_rfl
    · exact div_le_div_of_nonneg_right (by linarith) (by linarith)
  have e3 : lo2 = 0 := k2.unique ⟨⟨lo, g2.1, vlo⟩, by
    rintro _ ⟨v, hv, rfl⟩
    rw [← vlo]
    exact hmono (g2.2 hv)⟩
  have e4 : hi2 = if lo = hi then 0 else 1 := k3.unique ⟨⟨hi, g3.1, vhi⟩, by
    rintro _ ⟨v, hv, rfl⟩
    rw [← vhi]
    exact hmono (g3.2 hv)⟩
  refine ⟨lo, hi, ds1, ds2, _, g1, g4, by rw [k1, e3, e4], ?_⟩
  have : normVal Rounding.exact lo2 hi2 = id := by
    funext v
    rw [e3, e4]
    simp only [normVal, Rounding.exact_f]
    split_ifs <;> simp_all
  rw [this] at k4
  simpa using k4

/-- C21: exactly when the order is preserved, for every shape but an even number of series of one value. It is lost only for an even number of
series of odd length, if the values that are not the last of their series are all the same, not 0, and some last value differs. -/
theorem C21_order_exactly {ds : Dataset (F Rounding.exact)} {L : Nat} {R : List (List ℝ)} (h : ds.Holds L (R.map fins)) (h1 : 1 ≤ L)
    (h2 : L < 2 ^ 31) (hR : 1 ≤ R.length) (hshape : Even L ∨ Odd R.length ∨ 3 ≤ L) :
    (∃ (mm : F Rounding.exact × F Rounding.exact) (ds' : Dataset (F Rounding.exact)) (g : ℝ → ℝ),
      ds.normalize = (.ok mm, ds') ∧ ds'.Holds L (R.map fun r => fins (r.map g)) ∧
      ∀ v ∈ values R, ∀ w ∈ values R, g v ≤ g w ↔ v ≤ w) ↔
    ¬ (Odd L ∧ Even R.length ∧ ∃ c ≠ 0, (∀ x ∈ values (R.map List.dropLast), x = c) ∧ ∃ x ∈ values R, x ≠ c) := by
  by_cases hpar : Even L ∨ Odd R.length
  · refine iff_of_true (C21_order_preserved h h1 h2 hR hpar) ?_
    rintro ⟨a, b, _⟩
    rcases hpar with h | h
    · exact absurd h (Nat.not_even_iff_odd.mpr a)
    · exact absurd b (Nat.not_even_iff_odd.mpr h)
  rw [not_or, Nat.not_even_iff_odd, Nat.not_odd_iff_even] at hpar
  have h3 : 3 ≤ L := by
    rcases hshape with h | h | h
    · exact absurd h (Nat.not_even_iff_odd.mpr hpar.1)
    · exact absurd hpar.2 (Nat.not_even_iff_odd.mpr h)
    · exact h
  obtain ⟨lo, hi, ds', g1, g2, g3, k1, k2, k3⟩ := C20_odd_length h h3 h2 hR hpar.1 hpar.2
  have hle : lo ≤ hi := g2.2 g3.1
  have hsub : values (R.map List.dropLast) ⊆ values R := by
    rintro x ⟨r, hr, hx⟩
    obtain ⟨r', hr', rfl⟩ := List.mem_map.mp hr
    exact ⟨r', hr', List.mem_of_mem_dropLast hx⟩
  constructor
  · rintro ⟨mm, ds'', g, e1, e2, e3⟩ ⟨_, _, c, hc, hall, x, hx, hxc⟩
    obtain rfl : lo = c := hall lo g2.1
    have hh : lo = hi := (hall hi g3.1).symm
    rw [g1, Prod.mk.injEq] at e1
    rw [← e1.2] at e2
    have z := fun {v} => holds_same (v := v) e2 (k2 hh hc)
    have hl := hsub g2.1
    have t1 := (e3 x hx lo hl).mp (by rw [z hx, z hl])
    have t2 := (e3 lo hl x hx).mp (by rw [z hx, z hl])
    exact hxc (le_antisymm t1 t2)
  · intro hno
    by_cases hlh : lo = hi
    · by_cases h0 : lo = 0
      · exact ⟨_, ds', id, g1, by simpa using k3 hlh h0, fun _ _ _ _ => Iff.rfl⟩
      · have hc : ∀ x ∈ values R, x = lo := by
          by_contra hx
          push Not at hx
          obtain ⟨x, hx, hne⟩ := hx
          refine hno ⟨hpar.1, hpar.2, lo, h0, fun y hy => ?_, x, hx, hne⟩
          exact le_antisymm ((g3.2 hy).trans hlh.symm.le) (g2.2 hy)
        refine ⟨_, ds', fun _ => 0, g1, k2 hlh h0, fun v hv w hw => ?_⟩
        rw [hc v hv, hc w hw]
        simp
    · refine ⟨_, ds', _, g1, k1 hlh, fun v _ w _ => ?_⟩
      have : 0 < hi - lo := by
        have := lt_of_le_of_ne hle hlh
        linarith
      rw [div_le_div_iff_of_pos_right this]
      constructor <;> intro h <;> linarith

/-- Two series of three values: order is lost for the first table and kept for the second. -/
example : (¬ ¬ (Odd 3 ∧ Even [[5, 5, 7], [5, 5, 5]].length ∧ ∃ c : ℝ, c ≠ 0 ∧
      (∀ x ∈ values ([[5, 5, 7], [5, 5, 5]].map List.dropLast), x = c) ∧ ∃ x ∈ values [[5, 5, 7], [5, 5, 5]], x ≠ c)) ∧
    ¬ (Odd 3 ∧ Even [[5, 4, 7], [5, 5, 5]].length ∧ ∃ c : ℝ, c ≠ 0 ∧
      (∀ x ∈ values ([[5, 4, 7], [5, 5, 5]].map List.dropLast), x = c) ∧ ∃ x ∈ values [[5, 4, 7], [5, 5, 5]], x ≠ c) := by
  constructor
  · rw [not_not]
    refine ⟨by decide, by decide, 5, by norm_num, ?_, 7, ⟨[5, 5, 7], by simp, by simp⟩, by norm_num⟩
    rintro x ⟨r, hr, hx⟩
    simp at hr
    subst hr
    simpa using hx
  · rintro ⟨_, _, c, _, hc, _⟩
    have a : (5 : ℝ) = c := hc 5 ⟨[5, 4], by simp, by simp⟩
    have b : (4 : ℝ) = c := hc 4 ⟨[5, 4], by simp, by simp⟩
    linarith

end Onex
