import Verif.Proofs.Kim
import Mathlib.Tactic.IntervalCases

/-!
# C15: the Kim bound

The bound adds the cheapest cells of the first two or three rings around the two ends of a warping path. It is a lower bound
exactly for the lengths at which the rings do not overlap; `C15_short_counterexample` and `C15_overlap_counterexample` show
what happens at all other lengths.
-/

namespace Onex

open Spec DataT

/-- The lengths for which the code is right: the shorter series has one point or four, or at least three and the longer at
least six. -/
def Spec.KimLengths (m n : ℕ) : Prop := min m n = 1 ∨ min m n = 4 ∨ 3 ≤ min m n ∧ 6 ≤ max m n

theorem kim_one (a b : List ℝ) (h : min a.length b.length = 1) (D : F Rounding.exact) :
    kimLowerBound (fins a) (fins b) D = .ok (F.fin (sq a b 0 0)) := by
  unfold kimLowerBound
  have hl : Min.min (len (fins a : List (F Rounding.exact))) (len (fins b : List (F Rounding.exact))) = 1 := by
    simp only [len, fins_length]
    omega
  dsimp only
  rw [hl, if_neg (by omega), if_pos rfl]
  exact kim_cell (k := 0) (l := 0) rfl rfl (by omega) (by omega)

/-- C15 with any dropout, in exact arithmetic and for the lengths above: the function does not fail; it returns a number that no
warping path (in any band) undercuts, or infinity, and then every warping path costs at least the dropout. -/
theorem C15_dropout_partial (a b : List ℝ) (hl : KimLengths a.length b.length) (D : F Rounding.exact) :
    ∃ v, kimLowerBound (fins a) (fins b) D = .ok v ∧
      ((∃ x, v = F.fin x ∧ ∀ r p, IsWarpPath r (a.length - 1) (b.length - 1) p → x ≤ pathCost a b p) ∨
       (v = F.pinf ∧ ∀ r p, IsWarpPath r (a.length - 1) (b.length - 1) p → le D (F.fin (pathCost a b p)) = true)) := by
  have lt_of : ∀ {x y : ℝ}, gt (F.fin x) D = true → x ≤ y → le D (F.fin y : F Rounding.exact) = true := by
    intro x y h hxy
    have h' := (lt_iff _ _).mp h
    rw [le_iff]
    cases D <;> simp_all [F.Lt, F.Eqv]
    exact Or.inl (lt_of_lt_of_le h' hxy)
  have le_of : ∀ {x y : ℝ}, ge (F.fin x) D = true → x ≤ y → le D (F.fin y : F Rounding.exact) = true := by
    intro x y h hxy
    have h' := (le_iff _ _).mp h
    rw [le_iff]
    cases D <;> simp_all [F.Lt, F.Eqv]
    rcases h' with h' | h'
    · exact Or.inl (lt_of_lt_of_le h' hxy)
    · rw [h']
      exact lt_or_eq_of_le hxy
  by_cases h1 : min a.length b.length = 1
  · refine ⟨_, kim_one a b h1 D, Or.inl ⟨_, rfl, ?_⟩⟩
    intro r p hp
    have := cells_le (a := a) (b := b) [(0, 0)] (p := p) (by simp) (by simp [(mem_ends hp).1])
    rw [cost_cons] at this
    have e : pathCost a b [] = 0 := by simp [pathCost]
    linarith
  · have hb : 3 ≤ min a.length b.length := by
      rcases hl with h | h | h <;> omega
    have two : ∀ r p, IsWarpPath r (a.length - 1) (b.length - 1) p → ends0 a b + front1 a b + back1 a b ≤ pathCost a b p :=
      fun r p hp => two_rings (by omega) (by omega) (by rcases hl with h | h | h <;> omega) hp
    have f1 := front1_nonneg (a := a) (b := b)
    have g1 := back1_nonneg (a := a) (b := b)
    have g2 := back2_nonneg (a := a) (b := b)
    refine ⟨_, kim_value (by omega) (by omega) D, ?_⟩
    split
    · exact Or.inr ⟨rfl, fun r p hp => lt_of ‹_› (by have := two r p hp; linarith)⟩
    split
    · exact Or.inr ⟨rfl, fun r p hp => lt_of ‹_› (by have := two r p hp; linarith)⟩
    split
    · exact Or.inr ⟨rfl, fun r p hp => le_of ‹_› (by have := two r p hp; linarith)⟩
    split
    · exact Or.inl ⟨_, rfl, two⟩
    have three : ∀ r p, IsWarpPath r (a.length - 1) (b.length - 1) p →
        ends0 a b + front1 a b + back1 a b + front2 a b + back2 a b ≤ pathCost a b p :=
      fun r p hp => three_rings (by omega) (by omega) (by rcases hl with h | h | h <;> omega) hp
    split
    · exact Or.inr ⟨rfl, fun r p hp => lt_of ‹_› (by have := three r p hp; linarith)⟩
    · exact Or.inl ⟨_, rfl, three⟩

/-- C15 without dropout, in exact arithmetic and for the lengths above: a number that no warping path undercuts.

Partial: the property is about all lengths; at the others it is false, see below. -/
theorem C15_lower_bound_partial (a b : List ℝ) (hl : KimLengths a.length b.length) :
    ∃ x, kimLowerBound (fins a) (fins b) (F.pinf : F Rounding.exact) = .ok (F.fin x) ∧
      ∀ r p, IsWarpPath r (a.length - 1) (b.length - 1) p → x ≤ pathCost a b p := by
  by_cases h1 : min a.length b.length = 1
  · obtain ⟨v, h, h' | h'⟩ := C15_dropout_partial a b hl F.pinf
    · obtain ⟨x, rfl, hx⟩ := h'
      exact ⟨x, h, hx⟩
    · rw [kim_one a b h1, h'.1] at h
      simp at h
  · have hb : 3 ≤ min a.length b.length := by
      rcases hl with h | h | h <;> omega
    have hg : ∀ x : ℝ, gt (F.fin x) (F.pinf : F Rounding.exact) = false := fun x => lt_pinf _
    have hge : ∀ x : ℝ, ge (F.fin x) (F.pinf : F Rounding.exact) = false := by
      intro x
      have : ¬ le (F.pinf : F Rounding.exact) (F.fin x) = true := by
        rw [le_iff]
        simp [F.Lt, F.Eqv]
      simpa [ge] using this
    obtain ⟨v, h, h' | h'⟩ := C15_dropout_partial a b hl F.pinf
    · obtain ⟨x, rfl, hx⟩ := h'
      exact ⟨x, h, hx⟩
    · rw [kim_value (by omega) (by omega), h'.1] at h
      simp only [hg, hge, Bool.false_eq_true, if_false, Res.ok.injEq] at h
      split at h <;> simp at h

theorem tsGet_out {l : List ℝ} {z : Int} (h : len l ≤ z) :
    tsGet (fins l : List (F Rounding.exact)) z = .throw "Data point index is out of range" := by
  unfold tsGet
  rw [if_pos (by rw [len_fins]; omega)]

/-- C15 is false of the code at length two: a series of two points against any one of at least two points throws, whatever
the values. -/
theorem C15_short_counterexample (a b : List ℝ) (h : min a.length b.length = 2) :
    kimLowerBound (fins a) (fins b) (F.pinf : F Rounding.exact) = .throw "Data point index is out of range" := by
  have hg : ∀ x : ℝ, gt (F.fin x) (F.pinf : F Rounding.exact) = false := fun x => lt_pinf _
  have hge : ∀ x : ℝ, ge (F.fin x) (F.pinf : F Rounding.exact) = false := by
    intro x
    have : ¬ le (F.pinf : F Rounding.exact) (F.fin x) = true := by
      rw [le_iff]
      simp [F.Lt, F.Eqv]
    simpa [ge] using this
  unfold kimLowerBound
  have hl : Min.min (len (fins a : List (F Rounding.exact))) (len (fins b : List (F Rounding.exact))) = 2 := by
    simp only [len, fins_length]
    omega
  dsimp only
  have l1 : len (fins a : List (F Rounding.exact)) = (a.length : Int) := by simp [len]
  have l2 : len (fins b : List (F Rounding.exact)) = (b.length : Int) := by simp [len]
  rw [hl, if_neg (by omega), if_neg (by omega), l1, l2]
  rw [kim_cell (i := 0) (j := 0) (k := 0) (l := 0) rfl rfl (by omega) (by omega)]
  rw [kim_cell (i := (a.length : Int) - 1) (j := (b.length : Int) - 1) (k := a.length - 1) (l := b.length - 1) (by omega) (by omega) (by omega) (by omega)]
  rw [kim_cell (i := 0) (j := 1) (k := 0) (l := 1) rfl rfl (by omega) (by omega)]
  rw [kim_cell (i := 1) (j := 1) (k := 1) (l := 1) rfl rfl (by omega) (by omega)]
  rw [kim_cell (i := 1) (j := 0) (k := 1) (l := 0) rfl rfl (by omega) (by omega)]
  rw [kim_cell (i := (a.length : Int) - 1) (j := (b.length : Int) - 2) (k := a.length - 1) (l := b.length - 2) (by omega) (by omega) (by omega) (by omega)]
  rw [kim_cell (i := (a.length : Int) - 2) (j := (b.length : Int) - 2) (k := a.length - 2) (l := b.length - 2) (by omega) (by omega) (by omega) (by omega)]
  rw [kim_cell (i := (a.length : Int) - 2) (j := (b.length : Int) - 1) (k := a.length - 2) (l := b.length - 1) (by omega) (by omega) (by omega) (by omega)]
  simp only [Res.bind_ok, zero_F, add_fin, min3, min_fin, Rounding.exact_f, zero_add, hg, hge, Bool.false_eq_true, if_false,
    show ((2 : Int) = 4) = False by simp]
  rw [tsGet_at (z := 0) (k := 0) rfl (show 0 < a.length by omega)]
  by_cases hb : b.length = 2
  · rw [tsGet_out (l := b) (z := 2) (by simp [len, hb])]
    rfl
  · rw [tsGet_at (z := 2) (k := 2) rfl (show 2 < b.length by omega), tsGet_at (z := 1) (k := 1) rfl (show 1 < a.length by omega),
      tsGet_out (l := a) (z := 2) (by simp only [len]; omega)]
    rfl

/-- C15 is false of the code at the other lengths, where rings overlap and cells are counted twice: for two constant series the
bound is 6, but there is a warping path of at most five cells, each costing 1. -/
theorem C15_overlap_counterexample (m n : ℕ) (h3 : 3 ≤ min m n) (h4 : min m n ≠ 4) (h5 : max m n ≤ 5) :
    kimLowerBound (fins (List.replicate m 1)) (fins (List.replicate n 0)) (F.pinf : F Rounding.exact) = .ok (F.fin 6) ∧
    ∃ r p, IsWarpPath r (m - 1) (n - 1) p ∧ pathCost (List.replicate m 1) (List.replicate n 0) p ≤ 5 := by
  constructor
  · have hg : ∀ x : ℝ, gt (F.fin x) (F.pinf : F Rounding.exact) = false := fun x => lt_pinf _
    have hge : ∀ x : ℝ, ge (F.fin x) (F.pinf : F Rounding.exact) = false := by
      intro x
      have : ¬ le (F.pinf : F Rounding.exact) (F.fin x) = true := by
        rw [le_iff]
        simp [F.Lt, F.Eqv]
      simpa [ge] using this
    rw [kim_value (by simp; omega) (by simp; omega)]
    simp only [hg, hge, Bool.false_eq_true, if_false, List.length_replicate, h4]
    have hs : ∀ i j, i < m → j < n → sq (List.replicate m 1) (List.replicate n 0) i j = 1 := by
      intro i j hi hj
      simp [sq, List.getD, hi, hj]
    unfold ends0 front1 back1 front2 back2
    simp only [List.length_replicate]
    repeat rw [hs _ _ (by omega) (by omega)]
    norm_num
  · have hm : m ≤ 5 := by omega
    have hn : n ≤ 5 := by omega
    refine ⟨5, (List.range (max m n)).map fun k => (min k (m - 1), min k (n - 1)), ?_, ?_⟩
    · have hm3 : 3 ≤ m := by omega
      have hn3 : 3 ≤ n := by omega
      interval_cases m <;> interval_cases n <;> first
        | (exfalso; omega)
        | (constructor <;> simp [List.range_succ, IsStep])
    · unfold pathCost
      rw [List.map_map]
      refine (List.sum_le_card_nsmul _ 1 ?_).trans ?_
      · intro x hx
        obtain ⟨k, hk, rfl⟩ := List.mem_map.mp hx
        rw [List.mem_range] at hk
        have h1 : min k (m - 1) < m := by omega
        have h2 : min k (n - 1) < n := by omega
        simp [List.getD, h1, h2]
      · simp only [List.length_map, List.length_range, nsmul_eq_mul, mul_one]
        exact_mod_cast h5

/-- The lengths at which C15 is true of the code are exactly those of `KimLengths`. -/
theorem C15_exactly (m n : ℕ) (hm : 1 ≤ m) (hn : 1 ≤ n) :
    (∀ a b : List ℝ, a.length = m → b.length = n →
      ∃ x, kimLowerBound (fins a) (fins b) (F.pinf : F Rounding.exact) = .ok (F.fin x) ∧
        ∀ r p, IsWarpPath r (m - 1) (n - 1) p → x ≤ pathCost a b p) ↔ KimLengths m n := by
  constructor
  · intro h
    by_contra hk
    unfold KimLengths at hk
    obtain ⟨x, hx, hp⟩ := h (List.replicate m 1) (List.replicate n 0) (by simp) (by simp)
    by_cases h2 : min m n = 2
    · rw [C15_short_counterexample _ _ (by simpa using h2)] at hx
      simp at hx
    · obtain ⟨e, r, p, hw, hc⟩ := C15_overlap_counterexample m n (by omega) (by omega) (by omega)
      rw [e] at hx
      simp only [Res.ok.injEq, F.fin_inj] at hx
      have := hp r p hw
      linarith
  · rintro hk a b rfl rfl
    exact C15_lower_bound_partial a b hk

/-- A case with a positive bound: `[0,0,0,0]` and `[1,2,2,1]`. -/
example : KimLengths [(0 : ℝ), 0, 0, 0].length [(1 : ℝ), 2, 2, 1].length ∧
    0 < ends0 [0, 0, 0, 0] [1, 2, 2, 1] + front1 [0, 0, 0, 0] [1, 2, 2, 1] + back1 [0, 0, 0, 0] [1, 2, 2, 1] := by
  refine ⟨Or.inr (Or.inl rfl), ?_⟩
  norm_num [ends0, front1, back1, sq]

end Onex
