import Verif.Proofs.Save
import Verif.Proofs.Flt
import Verif.Spec.Paa
import Mathlib.Algebra.BigOperators.Ring.List
import Mathlib.Tactic.FieldSimp
import Mathlib.Tactic.Positivity

/-!
# `doPAA`, `PAA`
-/

namespace Onex
open DataT Spec

set_option linter.unusedSectionVars false

section generic
variable {α : Type} [DataT α]

/-- What is stored for a block: sum in order, divided by the number of elements. -/
def blockVal (xs : List α) : α := div (xs.foldl add zero) (ofInt xs.length)

/-- The stored values of the first `q` blocks. -/
def paaVals (n : Nat) (row : List α) (q : Nat) : List α := (List.range q).map fun j => blockVal (block n row j)

theorem paaVals_length (n : Nat) (row : List α) (q : Nat) : (paaVals n row q).length = q := by simp [paaVals]

theorem paaVals_succ (n : Nat) (row : List α) (q : Nat) :
    paaVals n row (q + 1) = paaVals n row q ++ [blockVal (block n row q)] := by
  simp [paaVals, List.range_succ]

/-- One row: the values are put in front of the slack. -/
theorem doPAA_spec (src : List α) (off : Nat) (row : List α) (pre slack : List α) (n L P : Nat) (hn : 1 ≤ n)
    (hLe : row.length = L) (hP : (L - 1) / n + 1 = P) (hL : 1 ≤ L) (hsrc : (src.drop off).take L = row)
    (hs : P ≤ slack.length) :
    doPAA src off (pre ++ slack) pre.length L n = .ok (pre ++ paaVals n row P ++ slack.drop P) := by
  unfold doPAA
  have key := forInt_ensures (lo := 0) (hi := (L : Int)) (s := ({ dest := pre ++ slack, sum := zero, count := 0 } : PaaState α))
    (body := fun i s => do
      let count := s.count + 1
      let v ← vget src ((off : Int) + i)
      let sum := add s.sum v
      if count = n ∨ i = (L : Int) - 1 then do
        let dest ← vset s.dest ((pre.length : Int) + i.tdiv n) (div sum (ofInt count))
        return { dest := dest, sum := zero, count := 0 }
      else return { dest := s.dest, sum := sum, count := count })
    (fun i s => ∃ q, q = (if i.toNat = L then P else i.toNat / n) ∧
      s.dest = pre ++ paaVals n row q ++ slack.drop q ∧
      s.sum = ((row.take i.toNat).drop (q * n)).foldl add zero ∧
      s.count = ((row.take i.toNat).drop (q * n)).length)
    (by omega) ?_ ?_
  · obtain ⟨s, h1, q, hq, h2, _, _⟩ := key
    rw [h1]
    simp only [Res.bind_ok, Res.pure_eq]
    rw [Int.toNat_natCast, if_pos rfl] at hq
    rw [h2, hq]
  · refine ⟨0, ?_, by simp [paaVals], by simp, by simp⟩
    rw [if_neg (by simp; omega)]
    simp
  · intro i s h0 h1 hI
    obtain ⟨i, rfl⟩ := Int.eq_ofNat_of_zero_le h0
    rw [Int.toNat_natCast] at hI
    obtain ⟨q, hq, hd, hsum, hc⟩ := hI
    have hiL : i < L := by omega
    rw [if_neg (by omega)] at hq
    have hv : vget src ((off : Int) + (i : Int)) = .ok (row[i]'(by omega)) := by
      rw [← Int.natCast_add]
      apply vget_of_getElem? (by omega)
      have : ((src.drop off).take L)[i]? = row[i]? := by rw [hsrc]
      rw [List.getElem?_take, if_pos hiL, List.getElem?_drop] at this
      rw [Int.toNat_natCast, this]
      simp
    have hqn : q * n ≤ i := by rw [hq]; exact Nat.div_mul_le_self i n
    have hqn2 : i < q * n + n := by
      have := Nat.lt_div_mul_add (a := i) (b := n) (by omega)
      rw [hq]
      exact this
    -- the current block with the new element
    have hcur : (row.take (i + 1)).drop (q * n) = (row.take i).drop (q * n) ++ [row[i]'(by omega)] := by
      rw [List.take_succ_eq_append_getElem (by omega), List.drop_append_of_le_length (by simp; omega)]
    have hcnt : s.count + 1 = (((row.take (i + 1)).drop (q * n)).length : Int) := by
      rw [hcur, hc, List.length_append]
      simp
    have hadd : add s.sum (row[i]'(by omega)) = ((row.take (i + 1)).drop (q * n)).foldl add zero := by
      rw [hcur, hsum, List.foldl_append]
      rfl
    have hlen : ((row.take (i + 1)).drop (q * n)).length = i + 1 - q * n := by
      simp; omega
    dsimp only
    rw [hv]
    simp only [Res.bind_ok]
    rw [hadd, hcnt, hlen]
    have ei : (((i : Int) + 1).toNat) = i + 1 := by omega
    by_cases hfl : ((i + 1 - q * n : Nat) : Int) = (n : Int) ∨ (i : Int) = (L : Int) - 1
    · rw [if_pos hfl]
      have hblock : (row.take (i + 1)).drop (q * n) = block n row q := by
        unfold block
        by_cases hlast : i + 1 = q * n + n
        · rw [hlast, List.drop_take]
          congr 1
          omega
        · have : i + 1 = L := by omega
          rw [List.take_of_length_le (by omega), List.take_of_length_le (by simp; omega)]
      have hqP : q + 1 ≤ P := by
        rw [← hP, hq]
        have : i / n ≤ (L - 1) / n := Nat.div_le_div_right (by omega)
        omega
      have hpos : s.dest = (pre ++ paaVals n row q) ++ slack.drop q := hd
      have htd : ((pre.length : Int) + (i : Int).tdiv (n : Int)) = (((pre ++ paaVals n row q).length : Nat) : Int) := by
        rw [List.length_append, paaVals_length, hq]
        simp [Int.tdiv]
      rw [htd, vset_nat _ (by rw [hpos, List.length_append (bs := slack.drop q), List.length_drop]; omega)]
      simp only [Res.bind_ok, Res.pure_eq, Res.ensures_ok]
      refine ⟨q + 1, ?_, ?_, ?_, ?_⟩
      · rw [ei]
        by_cases hl : i + 1 = L
        · rw [if_pos hl, ← hP, ← hl, hq]
          simp
        · rw [if_neg hl]
          have : i + 1 = q * n + n := by omega
          rw [this]
          have : q * n + n = (q + 1) * n := by ring
          rw [this, Nat.mul_div_cancel _ (by omega)]
      · rw [hpos, List.set_append_right _ _ (le_refl _), Nat.sub_self]
        rw [List.drop_eq_getElem_cons (i := q) (by omega), List.set_cons_zero, paaVals_succ, ← hblock]
        simp only [blockVal, hlen, List.append_assoc, List.singleton_append]
      · rw [ei, List.drop_of_length_le (by
          rw [List.length_take]
          have : (q + 1) * n = q * n + n := by ring
          omega)]
        rfl
      · rw [ei, List.drop_of_length_le (by
          rw [List.length_take]
          have : (q + 1) * n = q * n + n := by ring
          omega)]
        rfl
    · rw [if_neg hfl]
      simp only [Res.pure_eq, Res.ensures_ok]
      refine ⟨q, ?_, hd, by rw [ei], by rw [ei, hlen]⟩
      rw [ei, if_neg (by omega), hq]
      symm
      apply Nat.div_eq_of_lt_le
      · rw [← hq]; omega
      · rw [← hq]
        have : (q + 1) * n = q * n + n := by ring
        omega

theorem calcPAALength_eq (L n : Nat) (hL : 1 ≤ L) : calcPAALength L n = (((L - 1) / n + 1 : Nat) : Int) := by
  unfold calcPAALength
  rw [show ((L : Int) - 1) = ((L - 1 : Nat) : Int) by omega]
  simp [Int.tdiv]

theorem ceil_eq (L n : Nat) (hn : 1 ≤ n) (hL : 1 ≤ L) : (L - 1) / n + 1 = (L + n - 1) / n := by
  rw [show L + n - 1 = (L - 1) + n by omega, Nat.add_div_right _ (by omega)]

/-- The whole dataset. -/
theorem PAA_spec (junk : α) {ds : Dataset α} {L : Nat} {R : List (List α)} (h : ds.Holds L R) (hL : 1 ≤ L)
    (n : Nat) (hn : 1 ≤ n) :
    ∃ ds', ds.PAA junk n = (.ok (), ds') ∧ ds'.itemCount = ds.itemCount ∧
      ds'.Holds ((L - 1) / n + 1) (R.map fun r => paaVals n r ((L - 1) / n + 1)) := by
  obtain ⟨P, hP⟩ : ∃ P, (L - 1) / n + 1 = P := ⟨_, rfl⟩
  obtain ⟨slack, hd⟩ := h.data
  have hbuf : ds.buf = .ok (R.flatten ++ slack) := by simp [Dataset.buf, hd]
  have hlen : calcPAALength ds.itemLength n = (P : Int) := by
    rw [h.itemLength, calcPAALength_eq L n hL, hP]
  unfold Dataset.PAA
  rw [if_neg (by omega)]
  dsimp only
  rw [hlen, h.itemCount, if_neg (by rw [← Int.natCast_mul]; omega), h.itemLength, ← Int.natCast_mul,
    Int.toNat_natCast, hbuf, hP]
  have key := forInt_ensures (lo := 0) (hi := (R.length : Int)) (s := List.replicate (R.length * P) junk)
    (body := fun ts nb => do
      let b ← (Res.ok (R.flatten ++ slack) : Res (List α))
      doPAA b (ts * L) nb (ts * P) L n)
    (fun ts nb => ∃ sl, nb = ((R.take ts.toNat).map fun r => paaVals n r P).flatten ++ sl ∧
      sl.length + ts.toNat * P = R.length * P)
    (by omega) ⟨_, by simp; rfl, by simp⟩ ?_
  · obtain ⟨nb, h1, sl, h2, h3⟩ := key
    rw [h1]
    refine ⟨_, rfl, rfl, ⟨?_, rfl, by simp, sl, ?_⟩⟩
    · intro r hr
      obtain ⟨r', _, rfl⟩ := List.mem_map.mp hr
      exact paaVals_length _ _ _
    · rw [h2]
      simp
  · intro ts nb h0 h1 hI
    obtain ⟨i, rfl⟩ := Int.eq_ofNat_of_zero_le h0
    obtain ⟨sl, h2, h3⟩ := hI
    rw [Int.toNat_natCast] at h2 h3
    have hi : i < R.length := by omega
    have hrow := h.rows _ (List.getElem_mem hi)
    have hfl : (((R.take i).map fun r => paaVals n r P).flatten).length = i * P := by
      rw [flatten_length (L := P)]
      · simp; omega
      · intro r hr
        obtain ⟨r', _, rfl⟩ := List.mem_map.mp hr
        exact paaVals_length _ _ _
    have hw := flatten_window h.rows slack i hi 0 L (by omega)
    simp only [Nat.add_zero, List.drop_zero] at hw
    have hle : (i + 1) * P ≤ R.length * P := Nat.mul_le_mul_right _ hi
    have e2 : (i + 1) * P = i * P + P := by ring
    have := doPAA_spec (R.flatten ++ slack) (i * L) R[i] (((R.take i).map fun r => paaVals n r P).flatten) sl n L P hn
      hrow hP hL (by rw [hw]; exact List.take_of_length_le (by omega)) (by omega)
    rw [hfl] at this
    push_cast at this
    simp only [Res.bind_ok]
    rw [h2, this, Res.ensures_ok]
    refine ⟨sl.drop P, ?_, ?_⟩
    · rw [show (((i : Int) + 1).toNat) = i + 1 by omega, List.take_succ_eq_append_getElem hi]
      rw [List.map_append, List.flatten_append]
      simp
    · rw [show (((i : Int) + 1).toNat) = i + 1 by omega, e2, List.length_drop]
      omega

end generic

section real

theorem foldl_fins (xs : List ℝ) : ∀ a : ℝ,
    (fins xs : List (F Rounding.exact)).foldl add (F.fin a) = F.fin (a + xs.sum) := by
  induction xs with
  | nil => intro a; simp [fins]
  | cons x xs ih =>
    intro a
    have := ih (a + x)
    simp only [fins, List.map_cons, List.foldl_cons, add_fin, Rounding.exact_f, List.sum_cons] at this ⊢
    rw [this]
    congr 1
    ring

theorem blockVal_fins (xs : List ℝ) (h : xs ≠ []) :
    blockVal (fins xs : List (F Rounding.exact)) = F.fin (mean xs) := by
  have hne : (xs.length : ℝ) ≠ 0 := by
    have := List.length_pos_iff.mpr h
    positivity
  unfold blockVal mean
  rw [zero_F, foldl_fins, fins_length, ofInt_F]
  rw [show (((xs.length : Nat) : Int) : ℝ) = (xs.length : ℝ) by push_cast; rfl, div_fin _ _ hne]
  simp

theorem block_fins {ρ : Rounding} (n : Nat) (row : List ℝ) (j : Nat) :
    block n (fins row : List (F ρ)) j = fins (block n row j) := by
  simp [block, fins, List.map_drop, List.map_take]

theorem block_ne_nil {β : Type} {n : Nat} {row : List β} {j : Nat} (hn : 1 ≤ n) (hj : j < (row.length + n - 1) / n) :
    block n row j ≠ [] := by
  have h1 : (j + 1) * n ≤ row.length + n - 1 :=
    (Nat.mul_le_mul_right n hj).trans (Nat.div_mul_le_self _ _)
  have h2 : (j + 1) * n = j * n + n := by ring
  intro e
  have : (block n row j).length = 0 := by rw [e]; rfl
  unfold block at this
  simp at this
  omega

/-- The approximation as a list. -/
noncomputable def paaRow (n : Nat) (row : List ℝ) : List ℝ :=
  (List.range ((row.length + n - 1) / n)).map fun j => mean (block n row j)

theorem paaRow_isPaa (n : Nat) (row : List ℝ) : IsPaa n row (paaRow n row) :=
  ⟨by simp [paaRow], by intro j h; simp [paaRow]⟩

theorem isPaa_eq {n : Nat} {row out : List ℝ} (h : IsPaa n row out) : out = paaRow n row := by
  apply List.ext_getElem
  · rw [h.length, (paaRow_isPaa n row).length]
  · intro j h1 h2
    rw [h.value j h1, (paaRow_isPaa n row).value j h2]

theorem paaVals_fins (n : Nat) (hn : 1 ≤ n) (row : List ℝ) :
    paaVals n (fins row : List (F Rounding.exact)) ((row.length + n - 1) / n) = fins (paaRow n row) := by
  unfold paaVals paaRow fins
  rw [List.map_map]
  apply List.map_congr_left
  intro j hj
  have := blockVal_fins (block n row j) (block_ne_nil hn (List.mem_range.mp hj))
  rw [← block_fins] at this
  exact this

/-! ### Laws -/

theorem sum_blocks (n : Nat) : ∀ (k : Nat) (xs : List ℝ), xs.length = k * n →
    xs.sum = ((List.range k).map fun j => (block n xs j).sum).sum
  | 0, xs, h => by
    have : xs = [] := List.length_eq_zero_iff.mp (by omega)
    simp [this]
  | k + 1, xs, h => by
    have e : (k + 1) * n = k * n + n := by ring
    have ih := sum_blocks n k (xs.take (k * n)) (by simp; omega)
    rw [List.range_succ, List.map_append, List.sum_append]
    have h1 : ((List.range k).map fun j => (block n xs j).sum) =
        (List.range k).map fun j => (block n (xs.take (k * n)) j).sum := by
      apply List.map_congr_left
      intro j hj
      have hj : j < k := List.mem_range.mp hj
      have h2 : (j + 1) * n ≤ k * n := Nat.mul_le_mul_right _ hj
      have h3 : (j + 1) * n = j * n + n := by ring
      unfold block
      rw [List.drop_take, List.take_take, Nat.min_eq_left (by omega)]
    rw [h1, ← ih]
    conv_lhs => rw [← List.take_append_drop (k * n) xs, List.sum_append]
    congr 1
    simp [block]
    rw [List.take_of_length_le (by simp; omega)]

theorem paaRow_one (row : List ℝ) : paaRow 1 row = row := by
  apply List.ext_getElem
  · simp [paaRow]
  · intro j h1 h2
    simp only [paaRow, List.getElem_map, List.getElem_range, block, Nat.mul_one]
    rw [List.drop_eq_getElem_cons h2, List.take_succ_cons, List.take_zero]
    simp [mean]

theorem paaRow_sum (n : Nat) (hn : 1 ≤ n) (row : List ℝ) (hd : n ∣ row.length) :
    row.sum = n * (paaRow n row).sum := by
  obtain ⟨k, hk⟩ := hd
  have hk' : row.length = k * n := by rw [hk]; ring
  have e : (row.length + n - 1) / n = k := by
    rw [hk']
    apply Nat.div_eq_of_lt_le
    · omega
    · have : (k + 1) * n = k * n + n := by ring
      omega
  rw [sum_blocks n k row hk']
  unfold paaRow
  rw [e, ← List.sum_map_mul_left]
  congr 1
  apply List.map_congr_left
  intro j hj
  have hj : j < k := List.mem_range.mp hj
  have h2 : (j + 1) * n ≤ k * n := Nat.mul_le_mul_right _ hj
  have h3 : (j + 1) * n = j * n + n := by ring
  have hl : (block n row j).length = n := by unfold block; simp; omega
  unfold mean
  rw [hl]
  have : (n : ℝ) ≠ 0 := by positivity
  field_simp

theorem mean_bounds {xs : List ℝ} (hne : xs ≠ []) {lo hi : ℝ} (h : ∀ x ∈ xs, lo ≤ x ∧ x ≤ hi) :
    lo ≤ mean xs ∧ mean xs ≤ hi := by
  have hpos : 0 < (xs.length : ℝ) := by
    have := List.length_pos_iff.mpr hne
    positivity
  have key : ∀ ys : List ℝ, (∀ x ∈ ys, lo ≤ x ∧ x ≤ hi) → lo * ys.length ≤ ys.sum ∧ ys.sum ≤ hi * ys.length := by
    intro ys
    induction ys with
    | nil => simp
    | cons y ys ih =>
      intro h
      have h1 := ih (fun x hx => h x (by simp [hx]))
      have h2 := h y (by simp)
      simp only [List.sum_cons, List.length_cons]
      push_cast
      constructor <;> nlinarith [h1.1, h1.2, h2.1, h2.2]
  obtain ⟨h1, h2⟩ := key xs h
  unfold mean
  exact ⟨(le_div_iff₀ hpos).mpr h1, (div_le_iff₀ hpos).mpr h2⟩

theorem paaRow_bounds (n : Nat) (hn : 1 ≤ n) (row : List ℝ) {lo hi : ℝ} (h : ∀ x ∈ row, lo ≤ x ∧ x ≤ hi) :
    ∀ y ∈ paaRow n row, lo ≤ y ∧ y ≤ hi := by
  intro y hy
  obtain ⟨j, hj, rfl⟩ := List.mem_map.mp hy
  apply mean_bounds (block_ne_nil hn (List.mem_range.mp hj))
  intro x hx
  exact h x (List.mem_of_mem_drop (List.mem_of_mem_take hx))

theorem div_ceil_ceil (L n k : Nat) (hn : 1 ≤ n) (hk : 1 ≤ k) (hd : n ∣ L) :
    ((L + n - 1) / n + k - 1) / k = (L + n * k - 1) / (n * k) := by
  obtain ⟨m, rfl⟩ := hd
  have e : (n * m + n - 1) / n = m := by
    apply Nat.div_eq_of_lt_le
    · rw [Nat.mul_comm m n]; omega
    · have : (m + 1) * n = n * m + n := by ring
      omega
  rw [e, ← Nat.div_div_eq_div_mul]
  congr 1
  symm
  by_cases h0 : m + k = 0
  · omega
  · apply Nat.div_eq_of_lt_le
    · have : (m + k - 1) * n + n = n * m + n * k := by
        have : (m + k - 1) * n + n = (m + k - 1 + 1) * n := by ring
        rw [this, Nat.sub_add_cancel (by omega)]
        ring
      have : 1 ≤ n := hn
      omega
    · have : (m + k - 1 + 1) * n = n * m + n * k := by
        rw [Nat.sub_add_cancel (by omega)]
        ring
      have : 0 < n * k := Nat.mul_pos (by omega) (by omega)
      omega

theorem paaRow_comp (n k : Nat) (hn : 1 ≤ n) (hk : 1 ≤ k) (row : List ℝ) (hd : n ∣ row.length) :
    paaRow k (paaRow n row) = paaRow (n * k) row := by
  have hlen : (paaRow n row).length = (row.length + n - 1) / n := (paaRow_isPaa n row).length
  apply List.ext_getElem
  · rw [(paaRow_isPaa k _).length, (paaRow_isPaa (n * k) _).length, hlen, div_ceil_ceil _ _ _ hn hk hd]
  · intro j h1 h2
    rw [(paaRow_isPaa k _).value j h1, (paaRow_isPaa (n * k) _).value j h2]
    -- the block of size n*k consists of whole blocks of size n
    obtain ⟨m, hm⟩ := hd
    have hm' : row.length = m * n := by rw [hm]; ring
    have hPm : (row.length + n - 1) / n = m := by
      rw [hm']
      apply Nat.div_eq_of_lt_le
      · omega
      · have : (m + 1) * n = m * n + n := by ring
        omega
    rw [hPm] at hlen
    rw [(paaRow_isPaa k _).length, hlen] at h1
    have hne := block_ne_nil (n := k) (row := paaRow n row) (j := j) hk (by rw [hlen]; exact h1)
    generalize hB : block k (paaRow n row) j = B at hne
    have hBl : B.length = min k (m - j * k) := by
      rw [← hB]
      simp [block, hlen]
    have hBpos := List.length_pos_iff.mpr hne
    generalize hC : block (n * k) row j = C
    have hjm : j * k + B.length ≤ m := by omega
    have hnm : (j * k + B.length) * n ≤ m * n := Nat.mul_le_mul_right _ hjm
    have hnm' : (j * k + B.length) * n = j * k * n + B.length * n := by ring
    have hCl : C.length = B.length * n := by
      rw [← hC]
      simp only [block, List.length_take, List.length_drop, hm', hBl]
      have e1 : n * k = k * n := by ring
      have e2 : j * (n * k) = j * k * n := by ring
      rw [e2, e1, ← Nat.sub_mul, Nat.mul_min_mul_right]
    have hBe : ∀ i (h : i < B.length), B[i] = mean (block n C i) := by
      intro i h
      have hi : j * k + i < m := by omega
      have e1 : B[i] = (paaRow n row)[j * k + i]'(by omega) := by
        subst hB
        simp [block]
      rw [e1, (paaRow_isPaa n row).value]
      congr 1
      rw [← hC]
      unfold block
      rw [List.drop_take, List.take_take, List.drop_drop]
      have e2 : (j * k + i) * n = j * (n * k) + i * n := by ring
      rw [e2, Nat.min_eq_left]
      have h3 : i + 1 ≤ k := by omega
      have h4 : (i + 1) * n ≤ k * n := Nat.mul_le_mul_right _ h3
      have h5 : (i + 1) * n = i * n + n := by ring
      have h6 : n * k = k * n := by ring
      omega
    have hCsum := sum_blocks n B.length C hCl
    have hBsum : B.sum = ((List.range B.length).map fun i => (block n C i).sum / n).sum := by
      have : B = (List.range B.length).map fun i => (block n C i).sum / n := by
        apply List.ext_getElem
        · simp
        · intro i g1 g2
          rw [hBe i g1]
          simp only [List.getElem_map, List.getElem_range, mean]
          have h4 : (i + 1) * n ≤ B.length * n := Nat.mul_le_mul_right _ g1
          have h5 : (i + 1) * n = i * n + n := by ring
          have : (block n C i).length = n := by
            simp only [block, List.length_take, List.length_drop, hCl]
            omega
          rw [this]
      conv_lhs => rw [this]
    unfold mean
    rw [hCl, hCsum, hBsum]
    have h5 : ((List.range B.length).map fun i => (block n C i).sum / (n : ℝ)) =
        (List.range B.length).map fun i => (block n C i).sum * (n : ℝ)⁻¹ := by
      simp [div_eq_mul_inv]
    rw [h5, List.sum_map_mul_right]
    have : (n : ℝ) ≠ 0 := by positivity
    have : (B.length : ℝ) ≠ 0 := by positivity
    push_cast
    field_simp

end real

end Onex
