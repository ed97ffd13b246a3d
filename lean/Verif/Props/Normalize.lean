import Verif.Proofs.Normalize
import Mathlib.Tactic.NormNum
import Mathlib.Tactic.Positivity
import Mathlib.Tactic.FieldSimp

/-!
# Properties of normalisation: C20, C21

`values R` is the set of all values of the table `R`.
-/

namespace Onex
open DataT

/-! ## C20 -/

/-- The value that the property asks for. -/
noncomputable def Spec.scaled (lo hi v : ℝ) : ℝ := if lo = hi then 0 else (v - lo) / (hi - lo)

open Spec

theorem normVal_exact {S : Set ℝ} {lo hi v : ℝ} (hlo : IsLeast S lo) (hhi : IsGreatest S hi) (hv : v ∈ S) :
    normVal Rounding.exact lo hi v = scaled lo hi v := by
  have h1 := hlo.2 hv
  have h2 := hhi.2 hv
  unfold normVal scaled
  simp only [Rounding.exact_f, sub_eq_zero]
  by_cases h : lo = hi
  · rw [if_pos h.symm, if_pos h]
    split
    · linarith
    · rfl
  · rw [if_neg (fun e => h e.symm), if_neg h]

/-- C20 in exact arithmetic, for the shapes on which it is true: the item length is even or the item count is odd.
(`L < 2^31` is the range of `int`.) For the other shapes see the counterexamples below. -/
theorem C20_normalize_partial {ds : Dataset (F Rounding.exact)} {L : Nat} {R : List (List ℝ)}
    (h : ds.Holds L (R.map fins)) (h1 : 1 ≤ L) (h2 : L < 2 ^ 31) (hR : 1 ≤ R.length)
    (hpar : Even L ∨ Odd R.length) :
    ∃ lo hi ds', ds.normalize = (.ok (F.fin lo, F.fin hi), ds') ∧ IsLeast (values R) lo ∧
      IsGreatest (values R) hi ∧ ds'.Holds L (R.map fun r => fins (r.map (scaled lo hi))) ∧
      ∀ v ∈ values R, 0 ≤ scaled lo hi v ∧ scaled lo hi v ≤ 1 := by
  obtain ⟨lo, hi, ds', g1, g2, g3, g4, _⟩ := normalize_spec h h1 h2 hR hpar
  have hm : (R.map fun r => (fins (r.map (normVal Rounding.exact lo hi)) : List (F Rounding.exact))) =
      R.map fun r => fins (r.map (scaled lo hi)) := by
    apply List.map_congr_left
    intro r hr
    congr 1
    apply List.map_congr_left
    intro v hv
    exact normVal_exact g2 g3 ⟨r, hr, hv⟩
  rw [hm] at g4
  refine ⟨lo, hi, ds', g1, g2, g3, g4, ?_⟩
  intro v hv
  have hl := g2.2 hv
  have hh := g3.2 hv
  unfold scaled
  split
  · norm_num
  · rename_i hne
    have hpos : 0 < hi - lo := by
      rcases lt_or_eq_of_le (hl.trans hh) with h | h
      · linarith
      · exact absurd h hne
    exact ⟨div_nonneg (by linarith) hpos.le, (div_le_one hpos).mpr (by linarith)⟩

/-- C20 under any rounding: the extremes are exact, each value is the rounded quotient of the rounded differences,
and no value becomes negative. -/
theorem C20_normalize_rounded_partial {ρ : Rounding} {ds : Dataset (F ρ)} {L : Nat} {R : List (List ℝ)}
    (h : ds.Holds L (R.map fins)) (h1 : 1 ≤ L) (h2 : L < 2 ^ 31) (hR : 1 ≤ R.length)
    (hpar : Even L ∨ Odd R.length) :
    ∃ lo hi ds', ds.normalize = (.ok (F.fin lo, F.fin hi), ds') ∧ IsLeast (values R) lo ∧
      IsGreatest (values R) hi ∧ (ρ.f (hi - lo) ≠ 0 →
        ds'.Holds L (R.map fun r => fins (r.map fun v => ρ.f (ρ.f (v - lo) / ρ.f (hi - lo)))) ∧
        ∀ v ∈ values R, 0 ≤ ρ.f (ρ.f (v - lo) / ρ.f (hi - lo)) ∧
          ρ.f (ρ.f (v - lo) / ρ.f (hi - lo)) ≤ ρ.f 1) := by
  obtain ⟨lo, hi, ds', g1, g2, g3, g4, _⟩ := normalize_spec h h1 h2 hR hpar
  refine ⟨lo, hi, ds', g1, g2, g3, fun hz => ⟨?_, ?_⟩⟩
  · have : (fun r : List ℝ => (fins (r.map (normVal ρ lo hi)) : List (F ρ))) =
        fun r => fins (r.map fun v => ρ.f (ρ.f (v - lo) / ρ.f (hi - lo))) := by
      funext r
      have : normVal ρ lo hi = fun v => ρ.f (ρ.f (v - lo) / ρ.f (hi - lo)) := by
        funext v
        unfold normVal
        rw [if_neg hz]
      rw [this]
    rwa [this] at g4
  · intro v hv
    have hl := g2.2 hv
    have hh := g3.2 hv
    have hd : 0 < ρ.f (hi - lo) := lt_of_le_of_ne (ρ.nonneg (by linarith)) (Ne.symm hz)
    refine ⟨ρ.nonneg (div_nonneg (ρ.nonneg (by linarith)) hd.le), ρ.mono ?_⟩
    rw [div_le_one hd]
    exact ρ.mono (by linarith)

/-- C20: with nothing loaded `normalize` throws and changes nothing. -/
theorem C20_empty {α : Type} [DataT α] (ds : Dataset α) (h : ds.itemCount = 0 ∨ ds.itemLength = 0) :
    ∃ m : String, ds.normalize = (.throw m, ds) := by
  unfold Dataset.normalize
  have : ds.itemLength * ds.itemCount = 0 := by
    rcases h with h | h <;> simp [h]
  refine ⟨"No data to normalize", ?_⟩
  simp only [this, if_true]

/-- Non-trivial case for C20: two rows of length 2. -/
example : ∃ ds : Dataset (F Rounding.exact), ds.Holds 2 ([[1, 2], [3, 5]].map fins) ∧ Even 2 :=
  ⟨⟨some [F.fin 1, F.fin 2, F.fin 3, F.fin 5], 0, 2, 2, "", false⟩,
    ⟨by simp [fins], rfl, rfl, [], rfl⟩, even_two⟩

/-- C20 is false for an odd item length and an even item count: the last element of each row is not looked at.
Here the rows are `0 0 5` and `1 0 0`; the maximum is reported as 1 and the data is left as it is, 5 included. -/
theorem C20_odd_length_counterexample (n : Nat) (p : String) :
    (⟨some (fins [0, 0, 5, 1, 0, 0]), n, 3, 2, p, false⟩ : Dataset (F Rounding.exact)).normalize =
      (.ok (F.fin 0, F.fin 1), ⟨some (fins [0, 0, 5, 1, 0, 0]), n, 3, 2, p, true⟩) := by
  have l1 : lt (F.fin 0 : F Rounding.exact) (F.fin 1) = true := by simp
  have l0 : lt (F.fin 0 : F Rounding.exact) (F.fin 0) = false := by simp
  have e1 : DataT.eq (F.fin 1 : F Rounding.exact) (F.fin 0) = false := by
    rw [Bool.eq_false_iff]
    simp
  have d : ∀ x : ℝ, div (F.fin x : F Rounding.exact) (F.fin 1) = F.fin x := by
    intro x
    rw [div_fin _ _ one_ne_zero]
    simp
  simp [Dataset.normalize, Dataset.buf, forInt, forIntGo, scanRow, toUnsigned, forInt2, vget, fins, gt,
    inf_F, ninf_F, l1, l0, e1, mapRows, vset, len, d]

/-- C20 is false for item length 1 and an even item count: nothing at all is looked at, the extremes are reported
as (∞, -∞) and every value becomes NaN. -/
theorem C20_single_column_counterexample (x y : ℝ) (n : Nat) (p : String) :
    (⟨some [F.fin x, F.fin y], n, 1, 2, p, false⟩ : Dataset (F Rounding.exact)).normalize =
      (.ok (F.pinf, F.ninf), ⟨some [F.nan, F.nan], n, 1, 2, p, true⟩) := by
  have s1 : sub (F.ninf : F Rounding.exact) F.pinf = F.ninf := rfl
  have s2 : ∀ z : ℝ, sub (F.fin z : F Rounding.exact) F.pinf = F.ninf := fun _ => rfl
  have e1 : DataT.eq (F.ninf : F Rounding.exact) (F.fin 0) = false := by
    rw [Bool.eq_false_iff]
    exact fun h => (eq_iff _ _).mp h
  have d : div (F.ninf : F Rounding.exact) F.ninf = F.nan := rfl
  simp [Dataset.normalize, Dataset.buf, forInt, forIntGo, scanRow, toUnsigned, forInt2, vget,
    inf_F, ninf_F, s1, s2, e1, mapRows, vset, len, d]

/-! ## C21 -/

theorem scaled_le_iff {S : Set ℝ} {lo hi : ℝ} (hlo : IsLeast S lo) (hhi : IsGreatest S hi) {v w : ℝ}
    (hv : v ∈ S) (hw : w ∈ S) : scaled lo hi v ≤ scaled lo hi w ↔ v ≤ w := by
  have h1 := hlo.2 hv
  have h2 := hhi.2 hv
  have h3 := hlo.2 hw
  have h4 := hhi.2 hw
  unfold scaled
  by_cases h : lo = hi
  · rw [if_pos h, if_pos h]
    exact ⟨fun _ => by linarith, fun _ => le_refl _⟩
  · rw [if_neg h, if_neg h]
    have hpos : 0 < hi - lo := by
      rcases lt_or_eq_of_le (h1.trans h2) with h' | h'
      · linarith
      · exact absurd h' h
    rw [div_le_div_iff_of_pos_right hpos]
    constructor <;> intro h <;> linarith

/-- C21 (order), on the shapes where C20 holds. -/
theorem C21_order_preserved {ds : Dataset (F Rounding.exact)} {L : Nat} {R : List (List ℝ)}
    (h : ds.Holds L (R.map fins)) (h1 : 1 ≤ L) (h2 : L < 2 ^ 31) (hR : 1 ≤ R.length)
    (hpar : Even L ∨ Odd R.length) :
    ∃ (mm : F Rounding.exact × F Rounding.exact) (ds' : Dataset (F Rounding.exact)) (g : ℝ → ℝ),
      ds.normalize = (.ok mm, ds') ∧ ds'.Holds L (R.map fun r => fins (r.map g)) ∧
      ∀ v ∈ values R, ∀ w ∈ values R, g v ≤ g w ↔ v ≤ w := by
  obtain ⟨lo, hi, ds', g1, g2, g3, g4, _⟩ := C20_normalize_partial h h1 h2 hR hpar
  exact ⟨_, ds', _, g1, g4, fun v hv w hw => scaled_le_iff g2 g3 hv hw⟩

/-- C21 (order) under any rounding: order is never reversed. -/
theorem C21_order_not_reversed_rounded {ρ : Rounding} {ds : Dataset (F ρ)} {L : Nat} {R : List (List ℝ)}
    (h : ds.Holds L (R.map fins)) (h1 : 1 ≤ L) (h2 : L < 2 ^ 31) (hR : 1 ≤ R.length)
    (hpar : Even L ∨ Odd R.length) :
    ∃ (mm : F ρ × F ρ) (ds' : Dataset (F ρ)) (g : ℝ → ℝ), ds.normalize = (.ok mm, ds') ∧
      ds'.Holds L (R.map fun r => fins (r.map g)) ∧ Monotone g := by
  obtain ⟨lo, hi, ds', g1, g2, g3, g4, _⟩ := normalize_spec h h1 h2 hR hpar
  refine ⟨_, ds', _, g1, g4, ?_⟩
  have hle : lo ≤ hi := g3.2 g2.1
  intro v w hvw
  unfold normVal
  split
  · split
    · exact hvw
    · exact le_refl _
  · rename_i hz
    have hd : 0 < ρ.f (hi - lo) := lt_of_le_of_ne (ρ.nonneg (by linarith)) (Ne.symm hz)
    apply ρ.mono
    apply div_le_div_of_nonneg_right _ hd.le
    exact ρ.mono (by linarith)

theorem values_map (R : List (List ℝ)) (g : ℝ → ℝ) : values (R.map fun r => r.map g) = g '' values R := by
  ext x
  constructor
  · rintro ⟨r, hr, hx⟩
    obtain ⟨r', hr', rfl⟩ := List.mem_map.mp hr
    obtain ⟨v, hv, rfl⟩ := List.mem_map.mp hx
    exact ⟨v, ⟨r', hr', hv⟩, rfl⟩
  · rintro ⟨v, ⟨r, hr, hv⟩, rfl⟩
    exact ⟨r.map g, List.mem_map_of_mem hr, List.mem_map_of_mem hv⟩

/-- C21 (idempotence), on the shapes where C20 holds: the second `normalize` changes no value and returns (0, 1),
or (0, 0) for constant data. -/
theorem C21_idempotent {ds : Dataset (F Rounding.exact)} {L : Nat} {R : List (List ℝ)}
    (h : ds.Holds L (R.map fins)) (h1 : 1 ≤ L) (h2 : L < 2 ^ 31) (hR : 1 ≤ R.length)
    (hpar : Even L ∨ Odd R.length) :
    ∃ (lo hi : ℝ) (ds1 ds2 : Dataset (F Rounding.exact)) (R1 : List (List ℝ)),
      ds.normalize = (.ok (F.fin lo, F.fin hi), ds1) ∧ ds1.Holds L (R1.map fins) ∧
      ds1.normalize = (.ok (F.fin 0, F.fin (if lo = hi then 0 else 1)), ds2) ∧ ds2.Holds L (R1.map fins) := by
  obtain ⟨lo, hi, ds1, g1, g2, g3, g4, g5⟩ := C20_normalize_partial h h1 h2 hR hpar
  have e : (R.map fun r => (fins (r.map (scaled lo hi)) : List (F Rounding.exact))) =
      (R.map fun r => r.map (scaled lo hi)).map fins := by simp
  rw [e] at g4
  obtain ⟨lo2, hi2, ds2, k1, k2, k3, k4, _⟩ := C20_normalize_partial g4 h1 h2 (by simpa using hR) (by simpa using hpar)
  rw [values_map] at k2 k3
  have hlo : IsLeast (scaled lo hi '' values R) 0 := by
    refine ⟨⟨lo, g2.1, ?_⟩, ?_⟩
    · unfold scaled
      split <;> simp
    · rintro _ ⟨v, hv, rfl⟩
      exact (g5 v hv).1
  have hhi : IsGreatest (scaled lo hi '' values R) (if lo = hi then 0 else 1) := by
    refine ⟨⟨hi, g3.1, ?_⟩, ?_⟩
    · unfold scaled
      split
      · rfl
      · rename_i hne
        have : hi - lo ≠ 0 := fun e => hne (by linarith)
        field_simp
    · rintro _ ⟨v, hv, rfl⟩
      split
      · rename_i he
        simp [scaled, he]
      · exact (g5 v hv).2
  have e1 : lo2 = 0 := k2.unique hlo
  have e2 : hi2 = if lo = hi then 0 else 1 := k3.unique hhi
  refine ⟨lo, hi, ds1, ds2, _, g1, g4, by rw [k1, e1, e2], ?_⟩
  have : ((R.map fun r => r.map (scaled lo hi)).map fun r => (fins (r.map (scaled lo2 hi2)) : List (F Rounding.exact))) =
      (R.map fun r => r.map (scaled lo hi)).map fins := by
    apply List.map_congr_left
    intro r hr
    congr 1
    conv_rhs => rw [← List.map_id r]
    apply List.map_congr_left
    intro v hv
    obtain ⟨r', hr', rfl⟩ := List.mem_map.mp hr
    obtain ⟨v', hv', rfl⟩ := List.mem_map.mp hv
    by_cases he : lo = hi
    · rw [e1, e2]
      simp [scaled, he]
    · rw [e1, e2]
      simp [scaled, he]
  rwa [this] at k4

/-- Non-trivial case for C21: one row of odd length. -/
example : ∃ ds : Dataset (F Rounding.exact), ds.Holds 3 ([[1, 2, 7]].map fins) ∧ Odd [[1, 2, 7]].length :=
  ⟨⟨some [F.fin 1, F.fin 2, F.fin 7], 0, 3, 1, "", false⟩, ⟨by simp [fins], rfl, rfl, [], rfl⟩, by simp⟩

end Onex
