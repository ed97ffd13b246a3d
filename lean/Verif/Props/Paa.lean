import Verif.Proofs.Paa

/-!
# Properties of PAA: C22, C23
-/

namespace Onex
open DataT Spec

/-- C22 in exact arithmetic. `IsPaa n row out`: `out` has `ceil(length/n)` elements, element `j` being the mean of
elements `j*n .. min((j+1)*n, length)-1` of `row`. -/
theorem C22_paa_means (junk : F Rounding.exact) {ds : Dataset (F Rounding.exact)} {L : Nat} {R : List (List ℝ)}
    (h : ds.Holds L (R.map fins)) (hL : 1 ≤ L) (n : Nat) (hn : 1 ≤ n) :
    ∃ (ds' : Dataset (F Rounding.exact)) (R' : List (List ℝ)), ds.PAA junk n = (.ok (), ds') ∧
      ds'.itemCount = ds.itemCount ∧ ds'.itemLength = ((L + n - 1) / n : Nat) ∧
      ds'.Holds ((L + n - 1) / n) (R'.map fins) ∧ List.Forall₂ (IsPaa n) R R' := by
  obtain ⟨ds', h1, h2, h3⟩ := PAA_spec junk h hL n hn
  rw [ceil_eq L n hn hL] at h3
  have hrows : ∀ r ∈ R, r.length = L := by
    intro r hr
    simpa using h.rows (fins r) (List.mem_map_of_mem hr)
  have e : ((R.map fins).map fun r => paaVals n r ((L + n - 1) / n)) =
      (R.map (paaRow n)).map (fins (ρ := Rounding.exact)) := by
    rw [List.map_map, List.map_map]
    apply List.map_congr_left
    intro r hr
    have := paaVals_fins n hn r
    rw [hrows r hr] at this
    exact this
  rw [e] at h3
  refine ⟨ds', R.map (paaRow n), h1, h2, h3.itemLength, h3, ?_⟩
  rw [List.forall₂_map_right_iff, List.forall₂_same]
  intro r _
  exact paaRow_isPaa n r

/-- C22 for every number type: the stored value is the sum of the block in order, divided by its size. -/
theorem C22_paa_blocks {α : Type} [DataT α] (junk : α) {ds : Dataset α} {L : Nat} {R : List (List α)}
    (h : ds.Holds L R) (hL : 1 ≤ L) (n : Nat) (hn : 1 ≤ n) :
    ∃ (ds' : Dataset α) (R' : List (List α)), ds.PAA junk n = (.ok (), ds') ∧ ds'.itemCount = ds.itemCount ∧
      ds'.Holds ((L + n - 1) / n) R' ∧ List.Forall₂ (fun r r' => ∀ j (hj : j < r'.length),
        r'[j] = div ((block n r j).foldl add zero) (ofInt (block n r j).length)) R R' := by
  obtain ⟨ds', h1, h2, h3⟩ := PAA_spec junk h hL n hn
  rw [ceil_eq L n hn hL] at h3
  refine ⟨ds', _, h1, h2, h3, ?_⟩
  rw [List.forall₂_map_right_iff, List.forall₂_same]
  intro r _ j hj
  simp [paaVals, blockVal]

/-- C22: a block size that is not positive is rejected and changes nothing. -/
theorem C22_bad_block_size {α : Type} [DataT α] (junk : α) (ds : Dataset α) (n : Int) (hn : n ≤ 0) :
    ∃ m : String, ds.PAA junk n = (.throw m, ds) := by
  refine ⟨"Block size must be positive", ?_⟩
  unfold Dataset.PAA
  rw [if_pos hn]

/-- Non-trivial case for C22: two rows of length 3, block size 2 (the last block is short). -/
example : ∃ ds : Dataset (F Rounding.exact), ds.Holds 3 ([[1, 2, 7], [0, 4, 1]].map fins) :=
  ⟨⟨some (fins [1, 2, 7, 0, 4, 1]), 0, 3, 2, "", false⟩, ⟨by simp, rfl, rfl, [], rfl⟩⟩

example : IsPaa 2 [1, 2, 7] [3 / 2, 7] := by
  refine ⟨rfl, ?_⟩
  intro j h
  have : j = 0 ∨ j = 1 := by simp at h; omega
  rcases this with rfl | rfl
  · simp [mean, block]; norm_num
  · simp [mean, block]

/-- C23: PAA with block size 1 changes no value. -/
theorem C23_paa_one (junk : F Rounding.exact) {ds : Dataset (F Rounding.exact)} {L : Nat} {R : List (List ℝ)}
    (h : ds.Holds L (R.map fins)) (hL : 1 ≤ L) :
    ∃ ds', ds.PAA junk 1 = (.ok (), ds') ∧ ds'.Holds L (R.map fins) := by
  obtain ⟨ds', R', h1, _, _, h3, h4⟩ := C22_paa_means junk h hL 1 (le_refl _)
  have : R' = R := by
    symm
    rw [← List.forall₂_eq_eq_eq]
    exact h4.imp (fun r r' hr => by rw [isPaa_eq hr, paaRow_one])
  subst this
  rw [Nat.add_sub_cancel, Nat.div_one] at h3
  exact ⟨ds', h1, h3⟩

/-- C23: PAA does not leave the range of the data. -/
theorem C23_paa_range (junk : F Rounding.exact) {ds : Dataset (F Rounding.exact)} {L : Nat} {R : List (List ℝ)}
    (h : ds.Holds L (R.map fins)) (hL : 1 ≤ L) (n : Nat) (hn : 1 ≤ n) (lo hi : ℝ)
    (hb : ∀ r ∈ R, ∀ x ∈ r, lo ≤ x ∧ x ≤ hi) :
    ∃ (ds' : Dataset (F Rounding.exact)) (L' : Nat) (R' : List (List ℝ)), ds.PAA junk n = (.ok (), ds') ∧ ds'.Holds L' (R'.map fins) ∧
      ∀ r ∈ R', ∀ x ∈ r, lo ≤ x ∧ x ≤ hi := by
  obtain ⟨ds', R', h1, _, _, h3, h4⟩ := C22_paa_means junk h hL n hn
  refine ⟨ds', _, R', h1, h3, ?_⟩
  intro r hr
  obtain ⟨i, hi', rfl⟩ := List.getElem_of_mem hr
  have hi2 : i < R.length := by rw [h4.length_eq]; exact hi'
  have := (List.forall₂_iff_get.mp h4).2 i hi2 hi'
  simp only [List.get_eq_getElem] at this
  rw [isPaa_eq this]
  exact paaRow_bounds n hn _ (hb _ (List.getElem_mem hi2))

/-- C23: when `n` divides the item length, each row's sum is `n` times the sum of its approximation. -/
theorem C23_paa_sum (junk : F Rounding.exact) {ds : Dataset (F Rounding.exact)} {L : Nat} {R : List (List ℝ)}
    (h : ds.Holds L (R.map fins)) (hL : 1 ≤ L) (n : Nat) (hn : 1 ≤ n) (hd : n ∣ L) :
    ∃ (ds' : Dataset (F Rounding.exact)) (L' : Nat) (R' : List (List ℝ)), ds.PAA junk n = (.ok (), ds') ∧ ds'.Holds L' (R'.map fins) ∧
      List.Forall₂ (fun r r' => r.sum = (n : ℝ) * r'.sum) R R' := by
  obtain ⟨ds', R', h1, _, _, h3, h4⟩ := C22_paa_means junk h hL n hn
  refine ⟨ds', _, R', h1, h3, ?_⟩
  refine List.forall₂_iff_get.mpr ⟨h4.length_eq, ?_⟩
  intro i g1 g2
  have := (List.forall₂_iff_get.mp h4).2 i g1 g2
  have hr : (R.get ⟨i, g1⟩).length = L := by
    simpa using h.rows (fins (R.get ⟨i, g1⟩)) (List.mem_map_of_mem (List.getElem_mem g1))
  rw [isPaa_eq this]
  exact paaRow_sum n hn _ (by rw [hr]; exact hd)

/-- C23: PAA(n) and then PAA(k) is PAA(n*k) when `n` divides the item length. -/
theorem C23_paa_compose (junk : F Rounding.exact) {ds : Dataset (F Rounding.exact)} {L : Nat} {R : List (List ℝ)}
    (h : ds.Holds L (R.map fins)) (hL : 1 ≤ L) (n k : Nat) (hn : 1 ≤ n) (hk : 1 ≤ k) (hd : n ∣ L) :
    ∃ (ds1 ds2 ds3 : Dataset (F Rounding.exact)) (L' : Nat) (R' : List (List ℝ)), ds.PAA junk n = (.ok (), ds1) ∧ ds1.PAA junk k = (.ok (), ds2) ∧
      ds.PAA junk (n * k : Nat) = (.ok (), ds3) ∧ ds2.Holds L' (R'.map fins) ∧ ds3.Holds L' (R'.map fins) := by
  have hrows : ∀ r ∈ R, r.length = L := by
    intro r hr
    simpa using h.rows (fins r) (List.mem_map_of_mem hr)
  have conv : ∀ {n : Nat} {R R' : List (List ℝ)}, List.Forall₂ (IsPaa n) R R' → R' = R.map (paaRow n) := by
    intro n R R' h
    induction h with
    | nil => rfl
    | cons h _ ih => rw [List.map_cons, ← ih, isPaa_eq h]
  obtain ⟨ds1, R1, a1, _, _, a3, a4⟩ := C22_paa_means junk h hL n hn
  have hL1 : 1 ≤ (L + n - 1) / n := by
    rw [← ceil_eq L n hn hL]
    exact Nat.le_add_left 1 _
  obtain ⟨ds2, R2, b1, _, _, b3, b4⟩ := C22_paa_means junk a3 hL1 k hk
  obtain ⟨ds3, R3, c1, _, _, c3, c4⟩ := C22_paa_means junk h hL (n * k) (Nat.mul_pos (by omega) (by omega))
  have e : R2 = R3 := by
    rw [conv b4, conv a4, conv c4, List.map_map]
    apply List.map_congr_left
    intro r hr
    exact paaRow_comp n k hn hk r (by rw [hrows r hr]; exact hd)
  rw [div_ceil_ceil L n k hn hk hd, e] at b3
  exact ⟨ds1, ds2, ds3, _, R3, a1, b1, c1, b3, c3⟩

/-- Non-trivial case for C23: length 6, n = 2, k = 2 (the last block of the second step is short). -/
example : ∃ ds : Dataset (F Rounding.exact), ds.Holds 6 ([[1, 2, 7, 0, 4, 1]].map fins) ∧ 2 ∣ 6 :=
  ⟨⟨some (fins [1, 2, 7, 0, 4, 1]), 0, 6, 1, "", false⟩, ⟨by simp, rfl, rfl, [], rfl⟩, by norm_num⟩

end Onex
