import Verif.Proofs.NormalizeOdd

/-!
# C20 for an even number of series of odd length
-/

namespace Onex
open DataT Spec

/-- C20: what happens to an even number of series of odd length, 3 or more. The extremes reported are those of the values that are not the
last of their series. If these differ, all values are scaled with them; if they are one value other than 0, all values become 0; if they
are 0, nothing changes. -/
theorem C20_odd_length {ds : Dataset (F Rounding.exact)} {L : Nat} {R : List (List ℝ)} (h : ds.Holds L (R.map fins)) (h3 : 3 ≤ L)
    (h2 : L < 2 ^ 31) (hR : 1 ≤ R.length) (hodd : Odd L) (heven : Even R.length) :
    ∃ lo hi ds', ds.normalize = (.ok (F.fin lo, F.fin hi), ds') ∧ IsLeast (values (R.map List.dropLast)) lo ∧
      IsGreatest (values (R.map List.dropLast)) hi ∧
      (lo ≠ hi → ds'.Holds L (R.map fun r => fins (r.map fun v => (v - lo) / (hi - lo)))) ∧
      (lo = hi → lo ≠ 0 → ds'.Holds L (R.map fun r => fins (r.map fun _ => 0))) ∧
      (lo = hi → lo = 0 → ds'.Holds L (R.map fins)) := by
  obtain ⟨lo, hi, ds', g1, g2, g3, g4⟩ := normalize_odd h h3 h2 hR hodd heven
  refine ⟨lo, hi, ds', g1, g2, g3, fun hne => ?_, fun he h0 => ?_, fun he h0 => ?_⟩
  · have : normVal Rounding.exact lo hi = fun v => (v - lo) / (hi - lo) := by
      funext v
      simp only [normVal, Rounding.exact_f, sub_eq_zero, if_neg (Ne.symm hne)]
    rwa [this] at g4
  · have : normVal Rounding.exact lo hi = fun _ => 0 := by
      funext v
      simp only [normVal, Rounding.exact_f, sub_eq_zero, if_pos he.symm]
      rw [if_neg (he ▸ h0)]
    rwa [this] at g4
  · have : normVal Rounding.exact lo hi = id := by
      funext v
      simp only [normVal, Rounding.exact_f, sub_eq_zero, if_pos he.symm]
      rw [if_pos (he ▸ h0)]
      rfl
    simpa [this] using g4

/-- C20: an even number of series of one value. The extremes reported are infinity and minus infinity, and all values become NaN; under
every rounding. -/
theorem C20_single_column {ρ : Rounding} {ds : Dataset (F ρ)} {R : List (List ℝ)} (h : ds.Holds 1 (R.map fins)) (hR : 1 ≤ R.length)
    (heven : Even R.length) :
    ∃ ds', ds.normalize = (.ok (F.pinf, F.ninf), ds') ∧ ds'.Holds 1 (R.map fun _ => [F.nan]) :=
  normalize_column h hR heven

/-- C20: exactly when it is true. Normalising reports the least and the greatest value and scales with them, if and only if the length
is even, or the number of series is odd, or the last value of every series lies between two values that are not the last of a series. -/
theorem C20_exactly {ds : Dataset (F Rounding.exact)} {L : Nat} {R : List (List ℝ)} (h : ds.Holds L (R.map fins)) (h1 : 1 ≤ L)
    (h2 : L < 2 ^ 31) (hR : 1 ≤ R.length) :
    (∃ lo hi ds', ds.normalize = (.ok (F.fin lo, F.fin hi), ds') ∧ IsLeast (values R) lo ∧ IsGreatest (values R) hi ∧
      ds'.Holds L (R.map fun r => fins (r.map (scaled lo hi)))) ↔
    Even L ∨ Odd R.length ∨
      ∀ r ∈ R, ∀ x ∈ r.getLast?, ∃ lo ∈ values (R.map List.dropLast), ∃ hi ∈ values (R.map List.dropLast), lo ≤ x ∧ x ≤ hi := by
  have hrows : ∀ r ∈ R, r.length = L := by
    intro r hr
    simpa using h.rows (fins r) (List.mem_map_of_mem hr)
  have hsub : values (R.map List.dropLast) ⊆ values R := by
    rintro x ⟨r, hr, hx⟩
    obtain ⟨r', hr', rfl⟩ := List.mem_map.mp hr
    exact ⟨r', hr', List.mem_of_mem_dropLast hx⟩
  by_cases hpar : Even L ∨ Odd R.length
  · constructor
    · intro _
      rcases hpar with h | h
      · exact .inl h
      · exact .inr (.inl h)
    · intro _
      obtain ⟨lo, hi, ds', g1, g2, g3, g4, _⟩ := C20_normalize_partial h h1 h2 hR hpar
      exact ⟨lo, hi, ds', g1, g2, g3, g4⟩
  · rw [not_or, Nat.not_even_iff_odd, Nat.not_odd_iff_even] at hpar
    obtain ⟨hodd, heven⟩ := hpar
    have hL3 : L = 1 ∨ 3 ≤ L := by
      have := Nat.odd_iff.mp hodd
      omega
    rcases hL3 with rfl | h3
    · constructor
      · rintro ⟨lo, hi, ds', g1, _⟩
        obtain ⟨ds'', g, _⟩ := normalize_column h hR heven
        rw [g] at g1
        simp at g1
      · rintro (h | h | h)
        · exact absurd h (by decide)
        · exact absurd heven (Nat.not_even_iff_odd.mpr h)
        · exfalso
          have hr : 0 < R.length := by omega
          obtain ⟨v, hv⟩ := List.length_eq_one_iff.mp (hrows _ (List.getElem_mem hr))
          obtain ⟨lo, ⟨r, hr', hx⟩, _⟩ := h _ (List.getElem_mem hr) v (by simp [hv])
          obtain ⟨r', hr'', rfl⟩ := List.mem_map.mp hr'
          have := List.length_pos_of_mem hx
          rw [List.length_dropLast, hrows r' hr''] at this
          omega
    · obtain ⟨lo, hi, ds', g1, g2, g3, g4⟩ := normalize_odd h h3 h2 hR hodd heven
      constructor
      · rintro ⟨lo', hi', ds'', k1, k2, k3, _⟩
        rw [g1] at k1
        simp only [Prod.mk.injEq, Res.ok.injEq, F.fin_inj] at k1
        obtain ⟨⟨rfl, rfl⟩, _⟩ := k1
        refine .inr (.inr fun r hr x hx => ⟨lo, g2.1, hi, g3.1, ?_⟩)
        have : x ∈ values R := ⟨r, hr, List.mem_of_getLast? hx⟩
        exact ⟨k2.2 this, k3.2 this⟩
      · rintro (h | h | h)
        · exact absurd h (Nat.not_even_iff_odd.mpr hodd)
        · exact absurd heven (Nat.not_even_iff_odd.mpr h)
        · have hall : ∀ x ∈ values R, lo ≤ x ∧ x ≤ hi := by
            rintro x ⟨r, hr, hx⟩
            have hne : r ≠ [] := List.ne_nil_of_mem hx
            rw [← List.dropLast_append_getLast hne, List.mem_append, List.mem_singleton] at hx
            rcases hx with hx | hx
            · have : x ∈ values (R.map List.dropLast) := ⟨_, List.mem_map_of_mem hr, hx⟩
              exact ⟨g2.2 this, g3.2 this⟩
            · obtain ⟨a, ha, b, hb, h4, h5⟩ := h r hr x (by rw [hx]; exact List.getLast?_eq_some_getLast hne)
              exact ⟨(g2.2 ha).trans h4, h5.trans (g3.2 hb)⟩
          have l1 : IsLeast (values R) lo := ⟨hsub g2.1, fun x hx => (hall x hx).1⟩
          have l2 : IsGreatest (values R) hi := ⟨hsub g3.1, fun x hx => (hall x hx).2⟩
          refine ⟨lo, hi, ds', g1, l1, l2, ?_⟩
          have hm : (R.map fun r => (fins (r.map (normVal Rounding.exact lo hi)) : List (F Rounding.exact))) =
              R.map fun r => fins (r.map (scaled lo hi)) := by
            refine List.map_congr_left fun r hr => ?_
            congr 1
            exact List.map_congr_left fun v hv => normVal_exact l1 l2 ⟨r, hr, hv⟩
          rwa [hm] at g4

/-- Two series of three values whose last values, 5 and 2, lie between others: normalised rightly. -/
example (n : ℕ) (p : String) : ∃ lo hi ds', (⟨some (fins [0, 9, 5, 1, 0, 2]), n, 3, 2, p, false⟩ : Dataset (F Rounding.exact)).normalize =
    (.ok (F.fin lo, F.fin hi), ds') ∧ IsLeast (values [[0, 9, 5], [1, 0, 2]]) lo ∧ IsGreatest (values [[0, 9, 5], [1, 0, 2]]) hi := by
  have h : (⟨some (fins [0, 9, 5, 1, 0, 2]), n, 3, 2, p, false⟩ : Dataset (F Rounding.exact)).Holds 3 ([[0, 9, 5], [1, 0, 2]].map fins) :=
    ⟨by simp, rfl, rfl, [], by simp [fins]⟩
  obtain ⟨lo, hi, ds', g1, g2, g3, _⟩ := (C20_exactly h (by norm_num) (by norm_num) (by norm_num)).mpr (.inr (.inr (by
    intro r hr x hx
    refine ⟨0, ⟨[0, 9], by simp, by simp⟩, 9, ⟨[0, 9], by simp, by simp⟩, ?_⟩
    simp only [List.mem_cons, List.not_mem_nil, or_false] at hr
    rcases hr with rfl | rfl
    · obtain rfl : 5 = x := by simpa using hx
      norm_num
    · obtain rfl : 2 = x := by simpa using hx
      norm_num)))
  exact ⟨lo, hi, ds', g1, g2, g3⟩

/-- The series `4 4 1` and `4 4 7`: both become `0 0 0`. -/
example (n : ℕ) (p : String) : ∃ ds', (⟨some (fins [4, 4, 1, 4, 4, 7]), n, 3, 2, p, false⟩ : Dataset (F Rounding.exact)).normalize =
    (.ok (F.fin 4, F.fin 4), ds') ∧ ds'.Holds 3 ([[0, 0, 0], [0, 0, 0]].map fins) := by
  have h : (⟨some (fins [4, 4, 1, 4, 4, 7]), n, 3, 2, p, false⟩ : Dataset (F Rounding.exact)).Holds 3 ([[4, 4, 1], [4, 4, 7]].map fins) :=
    ⟨by simp, rfl, rfl, [], by simp [fins]⟩
  obtain ⟨lo, hi, ds', g1, g2, g3, _, g4, _⟩ := C20_odd_length h (by norm_num) (by norm_num) (by norm_num) (by decide) (by decide)
  have hv : values ([[4, 4, 1], [4, 4, 7]].map List.dropLast) = {(4 : ℝ)} := by
    ext x
    simp [values]
  rw [hv] at g2 g3
  obtain rfl : lo = 4 := g2.1
  obtain rfl : hi = 4 := g3.1
  exact ⟨ds', g1, by simpa using g4 rfl (by norm_num)⟩

end Onex
