import Verif.Proofs.SeriesPaa

/-!
# C70: PAA of a single series
-/

namespace Onex
open DataT Spec

variable {α : Type} [DataT α]

/-- C70 in exact arithmetic: the means of the blocks. -/
theorem C70_means (row : List ℝ) (n : Nat) (hn : 1 ≤ n) (hL : 1 ≤ row.length) :
    ∃ out, tsPAA (fins row : List (F Rounding.exact)) n = .ok (fins out) ∧ IsPaa n row out := by
  refine ⟨paaRow n row, ?_, paaRow_isPaa n row⟩
  rw [tsPAA_spec _ n hn (by simpa using hL), fins_length, paaVals_fins n hn row]

/-- C70 for every number type: the sum of each block in order, divided by its size. -/
theorem C70_blocks (row : List α) (n : Nat) (hn : 1 ≤ n) (hL : 1 ≤ row.length) :
    ∃ out, tsPAA row n = .ok out ∧ out.length = (row.length + n - 1) / n ∧
      ∀ j (hj : j < out.length), out[j] = div ((block n row j).foldl add zero) (ofInt (block n row j).length) := by
  refine ⟨_, tsPAA_spec row n hn hL, paaVals_length _ _ _, fun j hj => ?_⟩
  simp [paaVals, blockVal]

/-- C70: the same values as PAA of a dataset gives to this row. -/
theorem C70_same_as_dataset (junk : α) {ds : Dataset α} {L : Nat} {R : List (List α)} (h : ds.Holds L R) (hL : 1 ≤ L) (n : Nat) (hn : 1 ≤ n) :
    ∃ ds' R', ds.PAA junk n = (.ok (), ds') ∧ ds'.Holds ((L + n - 1) / n) R' ∧ List.Forall₂ (fun r r' => tsPAA r n = .ok r') R R' := by
  obtain ⟨ds', h1, -, h3⟩ := PAA_spec junk h hL n hn
  rw [ceil_eq L n hn hL] at h3
  refine ⟨ds', _, h1, h3, ?_⟩
  rw [List.forall₂_map_right_iff, List.forall₂_same]
  intro r hr
  have hr' := h.rows r hr
  rw [tsPAA_spec r n hn (by omega), hr']

/-- C70 fails here: a block size of 0 is not rejected but divided by. -/
theorem C70_zero_counterexample (row : List α) : (tsPAA row 0).IsUb := by
  unfold tsPAA
  rw [if_pos rfl]
  trivial

/-- C70 fails here: a negative block size is only rejected if it is smaller, without its sign, than the number of values. Otherwise it
stands for one block of all values. -/
theorem C70_negative_counterexample (row : List α) (n : Nat) (hn : 1 ≤ n) (hL : 1 ≤ row.length) :
    (row.length ≤ n → tsPAA row (-n) = .ok [div (row.foldl add zero) (ofInt row.length)]) ∧
    (n < row.length → ∃ e, tsPAA row (-n) = .throw e) := by
  have hne : row ≠ [] := by
    rintro rfl
    simp at hL
  have hgo : ∀ dest : List α, forInt 0 (len row) { dest := dest, sum := zero, count := 0 } (tsPaaBody row (-n)) =
      (tsSet dest ((len row - 1).tdiv (-n)) (div (row.foldl add zero) (ofInt (len row))) >>= fun d => .ok { dest := d, sum := zero, count := 0 }) := fun dest => by
    have := tsPaa_neg (-n : Int) (by omega) dest row [] zero hne
    simp only [List.nil_append, List.length_nil, Nat.cast_zero] at this
    unfold forInt
    rw [show (len row - 0).toNat = row.length by simp [len]]
    exact this
  have hq : (len row - 1).tdiv (-n) = -(((row.length - 1) / n : Nat) : Int) := by
    rw [show len row - 1 = ((row.length - 1 : Nat) : Int) by simp only [len]; omega, Int.tdiv_neg, ← Int.ofNat_tdiv]
  have hc : calcPAALength (len row) (-n) = 1 - (((row.length - 1) / n : Nat) : Int) := by
    unfold calcPAALength
    rw [hq]
    ring
  constructor
  · intro hle
    have h0 : (row.length - 1) / n = 0 := Nat.div_eq_of_lt (by omega)
    unfold tsPAA
    rw [if_neg (by omega)]
    dsimp only
    rw [hc, h0, if_neg (by simp), hgo, hq, h0]
    simp [tsSet, vset, len]
  · intro hlt
    have h1 : 1 ≤ (row.length - 1) / n := (Nat.one_le_div_iff (by omega)).mpr (by omega)
    unfold tsPAA
    rw [if_neg (by omega)]
    dsimp only
    rw [hc]
    generalize (row.length - 1) / n = k at *
    by_cases hk : k = 1
    · subst hk
      rw [if_neg (by simp), hgo, hq]
      exact ⟨_, by simp [tsSet]; rfl⟩
    · rw [if_pos (by omega)]
      exact ⟨_, rfl⟩

/-- C70 fails here: no values and a block size of 2 or more give one value, a zero. -/
theorem C70_empty_counterexample (n : Nat) (hn : 2 ≤ n) : tsPAA ([] : List α) n = .ok [zero] := by
  have hc : calcPAALength (len ([] : List α)) n = 1 := by
    have : (-1 : Int).tdiv n = 0 := by
      rw [Int.neg_tdiv, Int.tdiv_eq_zero_of_lt (by omega) (by omega)]
      rfl
    simp [calcPAALength, len, this]
  unfold tsPAA
  rw [if_neg (by omega)]
  dsimp only
  rw [hc]
  rfl

/-- Non-trivial case: `1 2 7` in blocks of 2. -/
example : 1 ≤ 2 ∧ 1 ≤ [(1 : ℝ), 2, 7].length ∧ IsPaa 2 [1, 2, 7] [3 / 2, 7] := by
  refine ⟨by simp, by simp, rfl, ?_⟩
  intro j h
  have : j = 0 ∨ j = 1 := by simp at h; omega
  rcases this with rfl | rfl
  · simp [mean, block]; norm_num
  · simp [mean, block]

end Onex
