import Verif.Props.Affine
import Verif.Props.NormalizeOrder

/-!
# C61: for which data scale and offset do not matter to `normalize`
-/

namespace Onex
open DataT Spec

/-- C61: exactly when normalising gives the very same values, for every shape but an even number of series of one value. It does not just
if, in an even number of series of odd length, all values but the last ones are one value, this is 0 before or after the change, and some
last value differs from it (unless nothing was changed at all). -/
theorem C61_normalized_exactly (c b : ℝ) (hc : 0 < c) {ds dt : Dataset XF} {L : Nat} {R : List (List ℝ)} (h : ds.Holds L (R.map fins))
    (h' : dt.Holds L ((R.map fun r => r.map fun x => c * x + b).map fins)) (h1 : 1 ≤ L) (h2 : L < 2 ^ 31) (hR : 1 ≤ R.length)
    (hshape : Even L ∨ Odd R.length ∨ 3 ≤ L) :
    (∃ (mm mm' : XF × XF) (ds' dt' : Dataset XF) (g : ℝ → ℝ), ds.normalize = (.ok mm, ds') ∧ dt.normalize = (.ok mm', dt') ∧
      ds'.Holds L (R.map fun r => fins (r.map g)) ∧ dt'.Holds L (R.map fun r => fins (r.map g))) ↔
    ¬ (Odd L ∧ Even R.length ∧ ∃ t, (∀ x ∈ values (R.map List.dropLast), x = t) ∧ (t = 0 ∨ c * t + b = 0) ∧ ¬ (c = 1 ∧ b = 0) ∧
      ∃ x ∈ values R, x ≠ t) := by
  by_cases hpar : Even L ∨ Odd R.length
  · have hno : ¬ (Odd L ∧ Even R.length ∧ ∃ t, (∀ x ∈ values (R.map List.dropLast), x = t) ∧ (t = 0 ∨ c * t + b = 0) ∧
        ¬ (c = 1 ∧ b = 0) ∧ ∃ x ∈ values R, x ≠ t) := by
      rintro ⟨ho, he, _⟩
      rcases hpar with h | h
      · exact Nat.not_even_iff_odd.mpr ho h
      · exact Nat.not_even_iff_odd.mpr h he
    refine ⟨fun _ => hno, fun _ => ?_⟩
    obtain ⟨lo, hi, ds', g1, g2, g3, g4, _⟩ := C20_normalize_partial h h1 h2 hR hpar
    obtain ⟨lo', hi', dt', k1, k2, k3, k4, _⟩ := C20_normalize_partial h' h1 h2 (by simpa using hR) (by simpa using hpar)
    obtain ⟨lo'', hi'', ds'', dt'', R', j1, j2, -, -⟩ := C61_normalized_partial c b hc h h' h1 h2 hR hpar
    rw [g1] at j1
    rw [k1] at j2
    simp only [Prod.mk.injEq, Res.ok.injEq, F.fin.injEq] at j1 j2
    obtain ⟨⟨rfl, rfl⟩, -⟩ := j1
    obtain ⟨⟨rfl, rfl⟩, -⟩ := j2
    refine ⟨_, _, ds', dt', scaled lo hi, g1, k1, g4, ?_⟩
    rw [List.map_map] at k4
    convert k4 using 2
    funext r
    simp only [Function.comp, List.map_map]
    congr 1
    refine List.map_congr_left fun v _ => ?_
    simp only [Function.comp]
    exact (scaled_affine hc.ne').symm
  rw [not_or, Nat.not_even_iff_odd, Nat.not_odd_iff_even] at hpar
  have h3 : 3 ≤ L := by
    rcases hshape with h | h | h
    · exact absurd h (Nat.not_even_iff_odd.mpr hpar.1)
    · exact absurd hpar.2 (Nat.not_even_iff_odd.mpr h)
    · exact h
  obtain ⟨lo, hi, ds', g1, g2, g3, p1, p2, p3⟩ := C20_odd_length h h3 h2 hR hpar.1 hpar.2
  obtain ⟨lo', hi', dt', k1, k2, k3, q1, q2, q3⟩ := C20_odd_length h' h3 h2 (by simpa using hR) hpar.1 (by simpa using hpar.2)
  have ed : (R.map fun r => r.map fun x => c * x + b).map List.dropLast = (R.map List.dropLast).map fun r => r.map fun x => c * x + b := by
    simp [Function.comp_def]
  rw [ed, values_map] at k2 k3
  have e1 : lo' = c * lo + b := by
    refine k2.unique ⟨⟨lo, g2.1, rfl⟩, ?_⟩
    rintro _ ⟨v, hv, rfl⟩
    have := mul_le_mul_of_nonneg_left (g2.2 hv) hc.le
    simp only
    linarith
  have e2 : hi' = c * hi + b := by
    refine k3.unique ⟨⟨hi, g3.1, rfl⟩, ?_⟩
    rintro _ ⟨v, hv, rfl⟩
    have := mul_le_mul_of_nonneg_left (g3.2 hv) hc.le
    simp only
    linarith
  subst e1 e2
  simp only [List.map_map, Function.comp_def] at q1 q2 q3
  have hinj : c * lo + b = c * hi + b ↔ lo = hi := by
    constructor
    · intro e
      exact mul_left_cancel₀ hc.ne' (by linarith)
    · rintro rfl
      rfl
  have back : ∀ x, c * x + b = c * lo + b → x = lo := fun x e => mul_left_cancel₀ hc.ne' (by linarith)
  by_cases hlh : lo = hi
  · have honly : ∀ t, (∀ x ∈ values (R.map List.dropLast), x = t) → t = lo := fun t ht => (ht lo g2.1).symm
    have hall : ∀ x ∈ values (R.map List.dropLast), x = lo := fun x hx => le_antisymm ((g3.2 hx).trans hlh.symm.le) (g2.2 hx)
    constructor
    · rintro ⟨mm, mm', es, et, g, a1, a2, a3, a4⟩ ⟨-, -, t, ht, h0, hid, x, hx, hne⟩
      obtain rfl := honly t ht
      rw [g1] at a1
      rw [k1] at a2
      simp only [Prod.mk.injEq, Res.ok.injEq] at a1 a2
      obtain ⟨-, rfl⟩ := a1
      obtain ⟨-, rfl⟩ := a2
      by_cases z1 : t = 0
      · have f1 : g x = x := holds_same (g' := fun x => x) a3 (by simpa using p3 hlh z1) hx
        by_cases z2 : c * t + b = 0
        · have f2 : g x = c * x + b := holds_same a4 (q3 (hinj.mpr hlh) z2) hx
          subst z1
          have hb : b = 0 := by linarith
          subst hb
          refine hid ⟨?_, rfl⟩
          have : c * x = 1 * x := by linarith
          exact mul_right_cancel₀ hne this
        · have f2 : g x = 0 := holds_same a4 (q2 (hinj.mpr hlh) z2) hx
          exact hne (by rw [← f1, f2, z1])
      · have z2 : c * t + b = 0 := h0.resolve_left z1
        have f1 : g x = 0 := holds_same a3 (p2 hlh z1) hx
        have f2 : g x = c * x + b := holds_same a4 (q3 (hinj.mpr hlh) z2) hx
        exact hne (back x (by rw [← f2, f1, z2]))
    · intro hno
      have key : lo = 0 ∨ c * lo + b = 0 → ¬ (c = 1 ∧ b = 0) → ∀ x ∈ values R, x = lo := by
        intro h0 hid
        by_contra hx
        push Not at hx
        exact hno ⟨hpar.1, hpar.2, lo, hall, h0, hid, hx⟩
      have congr' : ∀ {es : Dataset XF} {g g' : ℝ → ℝ}, (∀ x ∈ values R, g x = g' x) → es.Holds L (R.map fun r => fins (r.map g)) →
          es.Holds L (R.map fun r => fins (r.map g')) := by
        intro es g g' hgg hh
        have : (R.map fun r => (fins (r.map g') : List XF)) = R.map fun r => fins (r.map g) :=
          List.map_congr_left fun r hr => by rw [List.map_congr_left fun x hx => (hgg x ⟨r, hr, hx⟩).symm]
        rwa [this]
      by_cases z1 : lo = 0
      · have s1 : ds'.Holds L (R.map fun r => fins (r.map fun x => x)) := by simpa using p3 hlh z1
        by_cases hid : c = 1 ∧ b = 0
        · have z2 : c * lo + b = 0 := by rw [z1, hid.2]; ring
          exact ⟨_, _, ds', dt', fun x => x, g1, k1, s1, congr' (fun x _ => by rw [hid.1, hid.2]; ring) (q3 (hinj.mpr hlh) z2)⟩
        · have hz := key (.inl z1) hid
          refine ⟨_, _, ds', dt', fun _ => 0, g1, k1, congr' (fun x hx => by rw [hz x hx, z1]) s1, ?_⟩
          by_cases z2 : c * lo + b = 0
          · exact congr' (fun x hx => by rw [hz x hx, z2]) (q3 (hinj.mpr hlh) z2)
          · exact q2 (hinj.mpr hlh) z2
      · refine ⟨_, _, ds', dt', fun _ => 0, g1, k1, p2 hlh z1, ?_⟩
        by_cases z2 : c * lo + b = 0
        · have hid : ¬ (c = 1 ∧ b = 0) := by
            rintro ⟨rfl, rfl⟩
            exact z1 (by linarith)
          have hz := key (.inr z2) hid
          exact congr' (fun x hx => by rw [hz x hx, z2]) (q3 (hinj.mpr hlh) z2)
        · exact q2 (hinj.mpr hlh) z2
  · constructor
    · rintro - ⟨-, -, t, ht, -⟩
      exact hlh (by rw [ht lo g2.1, ht hi g3.1])
    · intro _
      refine ⟨_, _, ds', dt', fun v => (v - lo) / (hi - lo), g1, k1, p1 hlh, ?_⟩
      have : (fun v : ℝ => (v - lo) / (hi - lo)) = fun x => (c * x + b - (c * lo + b)) / (c * hi + b - (c * lo + b)) := by
        funext v
        rw [show c * v + b - (c * lo + b) = c * (v - lo) by ring, show c * hi + b - (c * lo + b) = c * (hi - lo) by ring]
        exact (mul_div_mul_left _ _ hc.ne').symm
      rw [this]
      exact q1 fun e => hlh (hinj.mp e)

/-- C61 fails here: `0 0 1` and `0 0 2` are left as they are, but with 1 added to every value they do not become the same. -/
theorem C61_normalized_counterexample : ∃ ds dt : Dataset XF, ds.Holds 3 ([[0, 0, 1], [0, 0, 2]].map fins) ∧
    dt.Holds 3 (([[0, 0, 1], [0, 0, 2]].map fun r => r.map fun x => (1 : ℝ) * x + 1).map fins) ∧
    ¬ ∃ (mm mm' : XF × XF) (ds' dt' : Dataset XF) (g : ℝ → ℝ), ds.normalize = (.ok mm, ds') ∧ dt.normalize = (.ok mm', dt') ∧
      ds'.Holds 3 ([[0, 0, 1], [0, 0, 2]].map fun r => fins (r.map g)) ∧ dt'.Holds 3 ([[0, 0, 1], [0, 0, 2]].map fun r => fins (r.map g)) := by
  have h : (⟨some (fins [0, 0, 1, 0, 0, 2]), 0, 3, 2, "", false⟩ : Dataset XF).Holds 3 ([[0, 0, 1], [0, 0, 2]].map fins) :=
    ⟨by simp [fins], rfl, rfl, [], rfl⟩
  have h' : (⟨some (fins [1 * 0 + 1, 1 * 0 + 1, 1 * 1 + 1, 1 * 0 + 1, 1 * 0 + 1, 1 * 2 + 1]), 0, 3, 2, "", false⟩ : Dataset XF).Holds 3
      (([[0, 0, 1], [0, 0, 2]].map fun r => r.map fun x => (1 : ℝ) * x + 1).map fins) := ⟨by simp [fins], rfl, rfl, [], by simp [fins]⟩
  refine ⟨_, _, h, h', ?_⟩
  rw [C61_normalized_exactly 1 1 one_pos h h' (by norm_num) (by norm_num) (by simp) (.inr (.inr le_rfl)), not_not]
  refine ⟨by decide, by decide, 0, ?_, .inl rfl, by simp, 1, ⟨[0, 0, 1], by simp, by simp⟩, by norm_num⟩
  rintro x ⟨r, hr, hx⟩
  simp at hr
  subst hr
  simpa using hx

/-- C61: the shape left out above. An even number of series of one value become not-a-number whatever the values, so scale and offset do not
matter there either, under every rounding and for every change of the values. -/
theorem C61_normalized_single_column {ρ : Rounding} (f : ℝ → ℝ) {ds dt : Dataset (F ρ)} {R : List (List ℝ)} (h : ds.Holds 1 (R.map fins))
    (h' : dt.Holds 1 ((R.map fun r => r.map f).map fins)) (hR : 1 ≤ R.length) (heven : Even R.length) :
    ∃ mm ds' dt', ds.normalize = (.ok mm, ds') ∧ dt.normalize = (.ok mm, dt') ∧
      ds'.Holds 1 (R.map fun _ => [F.nan]) ∧ dt'.Holds 1 (R.map fun _ => [F.nan]) := by
  obtain ⟨ds', a1, a2⟩ := C20_single_column h hR heven
  obtain ⟨dt', b1, b2⟩ := C20_single_column h' (by simpa using hR) (by simpa using heven)
  exact ⟨_, ds', dt', a1, b1, a2, by simpa [Function.comp_def] using b2⟩

/-- Such data, `3` and `5`, and the same data doubled. -/
example : (⟨some (fins [3, 5]), 0, 1, 2, "", false⟩ : Dataset XF).Holds 1 ([[3], [5]].map fins) ∧
    (⟨some (fins [2 * 3, 2 * 5]), 0, 1, 2, "", false⟩ : Dataset XF).Holds 1 (([[3], [5]].map fun r => r.map fun x => 2 * x).map fins) :=
  ⟨⟨by simp [fins], rfl, rfl, [], by simp [fins]⟩, ⟨by simp [fins], rfl, rfl, [], by simp [fins]⟩⟩

/-- Values that vary before the last ones meet the condition: `0 1 5` and `0 0 2`. -/
example : ¬ (Odd 3 ∧ Even [[(0 : ℝ), 1, 5], [0, 0, 2]].length ∧ ∃ t : ℝ, (∀ x ∈ values ([[0, 1, 5], [0, 0, 2]].map List.dropLast), x = t) ∧
    (t = 0 ∨ 2 * t + 1 = 0) ∧ ¬ ((2 : ℝ) = 1 ∧ (1 : ℝ) = 0) ∧ ∃ x ∈ values [[0, 1, 5], [0, 0, 2]], x ≠ t) := by
  rintro ⟨-, -, t, ht, -⟩
  have a : (0 : ℝ) = t := ht 0 ⟨[0, 1], by simp, by simp⟩
  have b : (1 : ℝ) = t := ht 1 ⟨[0, 1], by simp, by simp⟩
  linarith

end Onex
