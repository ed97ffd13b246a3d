import Verif.Proofs.Save
import Verif.Proofs.Flt
import Mathlib.Order.Bounds.Basic
import Mathlib.Algebra.Group.Nat.Even

/-!
# `normalize`
-/

namespace Onex
open DataT

variable {ρ : Rounding}

/-- Running minimum and maximum of the values in `S`. -/
def MM (S : Set ℝ) (mm : F ρ × F ρ) : Prop :=
  (S = ∅ ∧ mm = (F.pinf, F.ninf)) ∨
    ∃ lo hi, mm = (F.fin lo, F.fin hi) ∧ IsLeast S lo ∧ IsGreatest S hi

theorem updMin {S : Set ℝ} {mm : F ρ × F ρ} (h : MM S mm) (v : ℝ) :
    ∃ lo, (if lt (F.fin v) mm.1 then F.fin v else mm.1) = F.fin lo ∧ IsLeast (insert v S) lo := by
  rcases h with ⟨rfl, rfl⟩ | ⟨lo, hi, rfl, h1, h2⟩
  · exact ⟨v, by simp, by simp⟩
  · by_cases hv : v < lo
    · refine ⟨v, by simp [hv], by simp, ?_⟩
      rintro x (rfl | hx)
      · exact le_refl _
      · exact hv.le.trans (h1.2 hx)
    · refine ⟨lo, by simp [hv], Set.mem_insert_of_mem _ h1.1, ?_⟩
      rintro x (rfl | hx)
      · exact not_lt.mp hv
      · exact h1.2 hx

theorem updMax {S : Set ℝ} {mm : F ρ × F ρ} (h : MM S mm) (v : ℝ) :
    ∃ hi, (if gt (F.fin v) mm.2 then F.fin v else mm.2) = F.fin hi ∧ IsGreatest (insert v S) hi := by
  rcases h with ⟨rfl, rfl⟩ | ⟨lo, hi, rfl, h1, h2⟩
  · have : gt (F.fin v : F ρ) F.ninf = true := lt_ninf_fin v
    exact ⟨v, by simp [this], by simp⟩
  · have g : gt (F.fin v : F ρ) (F.fin hi) = true ↔ hi < v := lt_fin _ _
    by_cases hv : hi < v
    · refine ⟨v, by simp [g, hv], by simp, ?_⟩
      rintro x (rfl | hx)
      · exact le_refl _
      · exact (h2.2 hx).trans hv.le
    · refine ⟨hi, by simp [g, hv], Set.mem_insert_of_mem _ h2.1, ?_⟩
      rintro x (rfl | hx)
      · exact not_lt.mp hv
      · exact h2.2 hx

theorem mm_one {S : Set ℝ} {mm : F ρ × F ρ} (h : MM S mm) (v : ℝ) :
    MM (insert v S) (if lt (F.fin v) mm.1 then F.fin v else mm.1, if gt (F.fin v) mm.2 then F.fin v else mm.2) := by
  obtain ⟨lo, h1, h2⟩ := updMin h v
  obtain ⟨hi, h3, h4⟩ := updMax h v
  exact .inr ⟨lo, hi, by rw [h1, h3], h2, h4⟩

/-- One step of the pairwise scan. -/
theorem mm_two {S : Set ℝ} {mm : F ρ × F ρ} (h : MM S mm) (x y : ℝ) (hxy : x ≤ y) :
    MM (insert x (insert y S))
      (if lt (F.fin x) mm.1 then F.fin x else mm.1, if gt (F.fin y) mm.2 then F.fin y else mm.2) := by
  obtain ⟨lo, h1, h2⟩ := updMin h x
  obtain ⟨hi, h3, h4⟩ := updMax h y
  refine .inr ⟨lo, hi, by rw [h1, h3], ?_, ?_⟩
  · refine ⟨?_, ?_⟩
    · rcases h2.1 with h | h
      · exact .inl h
      · exact .inr (.inr h)
    · rintro z (rfl | rfl | hz)
      · exact h2.2 (by simp)
      · exact (h2.2 (by simp)).trans hxy
      · exact h2.2 (.inr hz)
  · refine ⟨.inr h4.1, ?_⟩
    rintro z (rfl | hz)
    · exact hxy.trans (h4.2 (by simp))
    · exact h4.2 hz

theorem vget_row {b : List (F ρ)} {L : Nat} {ts : Nat} {row : List ℝ} (hrow : row.length = L)
    (hb : (b.drop (ts * L)).take L = fins row) (j : Nat) (hj : j < L) :
    vget b (ts * L + j) = .ok (F.fin (row[j]'(by omega))) := by
  apply vget_of_getElem? (by positivity)
  have e : ((ts : Int) * (L : Int) + (j : Int)).toNat = ts * L + j := by
    rw [← Int.natCast_mul, ← Int.natCast_add, Int.toNat_natCast]
  have : ((b.drop (ts * L)).take L)[j]? = (fins row)[j]? := by rw [hb]
  rw [List.getElem?_take, if_pos hj, List.getElem?_drop] at this
  rw [e, this]
  simp [fins, hrow, hj]

/-- Values of the first `k` elements. -/
def firsts (row : List ℝ) (k : Nat) : Set ℝ := {x | x ∈ row.take k}

theorem firsts_succ {row : List ℝ} {k : Nat} (h : k < row.length) :
    firsts row (k + 1) = insert row[k] (firsts row k) := by
  ext x
  simp only [firsts, Set.mem_ofPred_eq, Set.mem_insert_iff]
  rw [List.take_succ_eq_append_getElem h, List.mem_append, List.mem_singleton]
  tauto

/-- The scan of a row of an even number of elements from the front, or of one element and then pairs. -/
theorem scanRow_spec {b : List (F ρ)} {L : Nat} {ts : Nat} {row : List ℝ} (hrow : row.length = L)
    (hb : (b.drop (ts * L)).take L = fins row) (h1 : 1 ≤ L) (h2 : L < 2 ^ 31) (length : Int)
    (hpar : length.tmod 2 ≠ 0 ↔ L % 2 = 1) {S : Set ℝ} {mm : F ρ × F ρ} (h : MM S mm) :
    (scanRow b length L ts mm).Ensures (MM (S ∪ {x | x ∈ row})) := by
  unfold scanRow
  -- the loop over pairs
  have loop : ∀ (i0 k : Nat) (mm : F ρ × F ρ), i0 + 2 * k = L → MM (S ∪ firsts row i0) mm →
      (forInt2 (i0 : Int) (toUnsigned ((L : Int) - 1)) mm fun i mm => do
        let x ← vget b ((ts : Int) * L + i)
        let y ← vget b ((ts : Int) * L + (i + 1))
        let (x, y) := if gt x y then (y, x) else (x, y)
        let mx := if gt y mm.2 then y else mm.2
        let mn := if lt x mm.1 then x else mm.1
        return (mn, mx)).Ensures (MM (S ∪ {x | x ∈ row})) := by
    intro i0 k mm hk hmm
    unfold forInt2
    have e1 : toUnsigned ((L : Int) - 1) = (L : Int) - 1 := by
      unfold toUnsigned
      apply Int.emod_eq_of_lt <;> omega
    have e2 : ((toUnsigned ((L : Int) - 1) - i0 + 1) / 2) = (k : Int) := by rw [e1]; omega
    rw [e2]
    refine (forInt_ensures (fun (j : Int) (mm : F ρ × F ρ) => MM (S ∪ firsts row (i0 + 2 * j.toNat)) mm) (by omega) ?_ ?_).mono ?_
    · simpa using hmm
    · intro j mm hj0 hj1 hI
      obtain ⟨j, rfl⟩ := Int.eq_ofNat_of_zero_le hj0
      have hb1 := vget_row hrow hb (i0 + 2 * j) (by omega)
      have hb2 := vget_row hrow hb (i0 + 2 * j + 1) (by omega)
      push_cast at hb1 hb2
      dsimp only
      rw [hb1, hb2]
      simp only [Res.bind_ok, Res.pure_eq, Res.ensures_ok]
      have e3 : i0 + 2 * (((j : Int) + 1).toNat) = i0 + 2 * j + 1 + 1 := by omega
      rw [e3, firsts_succ (by omega), firsts_succ (by omega)]
      rw [Int.toNat_natCast] at hI
      generalize hx : row[i0 + 2 * j]'(by omega) = x
      generalize hy : row[i0 + 2 * j + 1]'(by omega) = y
      have g : gt (F.fin x : F ρ) (F.fin y) = true ↔ y < x := lt_fin _ _
      rw [Set.union_insert, Set.union_insert]
      by_cases hxy : y < x
      · rw [if_pos (g.mpr hxy)]
        exact mm_two hI y x hxy.le
      · rw [if_neg (fun h => hxy (g.mp h)), Set.insert_comm]
        exact mm_two hI x y (not_lt.mp hxy)
    · intro mm hmm
      rw [Int.toNat_natCast, hk] at hmm
      have : firsts row L = {x | x ∈ row} := by
        ext x
        simp [firsts, ← hrow]
      rwa [this] at hmm
  by_cases hodd : L % 2 = 1
  · have hl := hpar.mpr hodd
    have hb1 := vget_row hrow hb 0 (by omega)
    rw [Nat.cast_zero, add_zero] at hb1
    simp only [if_pos hl, hb1]
    have := loop 1 (L / 2) _ (by omega) (by
      have e : firsts row 1 = insert row[0] (firsts row 0) := firsts_succ (by omega)
      have e0 : firsts row 0 = ∅ := by ext x; simp [firsts]
      rw [e, e0, Set.union_insert, Set.union_empty]
      exact mm_one h row[0])
    simpa using this
  · have hl : ¬ length.tmod 2 ≠ 0 := fun h => hodd (hpar.mp h)
    simp only [if_neg hl]
    have := loop 0 (L / 2) mm (by omega) (by
      have e0 : firsts row 0 = ∅ := by ext x; simp [firsts]
      rw [e0, Set.union_empty]
      exact h)
    simpa using this

/-- All values of a table. -/
def values (R : List (List ℝ)) : Set ℝ := {x | ∃ r ∈ R, x ∈ r}

theorem values_take_succ {R : List (List ℝ)} {k : Nat} (h : k < R.length) :
    values (R.take (k + 1)) = values (R.take k) ∪ {x | x ∈ R[k]} := by
  ext x
  simp only [values, Set.mem_ofPred_eq, Set.mem_union]
  rw [List.take_succ_eq_append_getElem h]
  constructor
  · rintro ⟨r, hr, hx⟩
    rcases List.mem_append.mp hr with hr | hr
    · exact .inl ⟨r, hr, hx⟩
    · rw [List.mem_singleton] at hr
      subst hr
      exact .inr hx
  · rintro (⟨r, hr, hx⟩ | hx)
    · exact ⟨r, List.mem_append_left _ hr, hx⟩
    · exact ⟨_, List.mem_append_right _ (by simp), hx⟩

/-- Scanning all rows of a table. -/
theorem scan_spec {b : List (F ρ)} {L : Nat} {R : List (List ℝ)} {slack : List (F ρ)}
    (hb : b = (R.map fins).flatten ++ slack)
    (hrows : ∀ r ∈ R, r.length = L) (h1 : 1 ≤ L) (h2 : L < 2 ^ 31) (length : Int)
    (hpar : length.tmod 2 ≠ 0 ↔ L % 2 = 1) :
    (forInt 0 R.length ((inf, ninf) : F ρ × F ρ) fun ts mm => scanRow b length L ts mm).Ensures
      (MM (values R)) := by
  refine (forInt_ensures (fun (ts : Int) (mm : F ρ × F ρ) => MM (values (R.take ts.toNat)) mm) (by omega) ?_ ?_).mono ?_
  · left
    refine ⟨?_, rfl⟩
    ext x
    simp [values]
  · intro ts mm h3 h4 hI
    obtain ⟨i, rfl⟩ := Int.eq_ofNat_of_zero_le h3
    have hi : i < R.length := by omega
    rw [Int.toNat_natCast] at hI
    rw [show (((i : Int) + 1).toNat) = i + 1 by omega, values_take_succ hi]
    refine scanRow_spec (hrows _ (List.getElem_mem hi)) ?_ h1 h2 length hpar hI
    have hrows' : ∀ r ∈ R.map (fins (ρ := ρ)), r.length = L := by
      intro r hr
      obtain ⟨r', hr', rfl⟩ := List.mem_map.mp hr
      simpa using hrows r' hr'
    have := flatten_window hrows' slack i (by simpa using hi) 0 L (by omega)
    rw [Nat.add_zero] at this
    rw [hb, this]
    have hl := hrows _ (List.getElem_mem hi)
    simp [← hl]
  · intro mm hmm
    rw [Int.toNat_natCast, List.take_length] at hmm
    exact hmm

section map
variable {α : Type}

/-- `mapRows` maps the elements of the table in place. -/
theorem mapRows_spec (g : α → α) (n L : Nat) (hL : L < 2 ^ 31) (b : List α) (hb : n * L ≤ b.length) :
    mapRows g n L b = .ok ((b.take (n * L)).map g ++ b.drop (n * L)) := by
  unfold mapRows
  apply Res.Ensures.eq_ok
  have e1 : toUnsigned (L : Int) = L := by
    unfold toUnsigned
    apply Int.emod_eq_of_lt <;> omega
  rw [e1]
  refine (forInt_ensures (fun (ts : Int) (b' : List α) =>
    b' = (b.take (ts.toNat * L)).map g ++ b.drop (ts.toNat * L)) (by omega) (by simp) ?_).mono (by
      intro a ha
      rwa [Int.toNat_natCast] at ha)
  intro ts b1 h1 h2 hI
  obtain ⟨i, rfl⟩ := Int.eq_ofNat_of_zero_le h1
  rw [Int.toNat_natCast] at hI
  have e2 : (((i : Int) + 1).toNat) * L = i * L + L := by
    rw [show ((i : Int) + 1).toNat = i + 1 by omega]
    ring
  rw [e2]
  have hle : (i + 1) * L ≤ n * L := Nat.mul_le_mul_right _ (by omega)
  have e4 : (i + 1) * L = i * L + L := by ring
  refine (forInt_ensures (fun (j : Int) (b' : List α) =>
    b' = (b.take (i * L + j.toNat)).map g ++ b.drop (i * L + j.toNat)) (by omega) (by simpa using hI) ?_).mono (by
      intro a ha
      rwa [Int.toNat_natCast] at ha)
  intro j b2 h3 h4 hJ
  obtain ⟨j, rfl⟩ := Int.eq_ofNat_of_zero_le h3
  rw [Int.toNat_natCast] at hJ
  have hp : i * L + j < b.length := by omega
  have e3 : ((i : Int) * (L : Int) + (j : Int)) = ((i * L + j : Nat) : Int) := by push_cast; ring
  have hlen : b2.length = b.length := by rw [hJ]; simp; omega
  have hget : b2[i * L + j]'(by omega) = b[i * L + j] := by
    subst hJ
    rw [List.getElem_append_right (by simp)]
    simp [Nat.min_eq_left hp.le]
  rw [e3, vget_nat (by omega), Res.bind_ok, vset_nat _ (by omega), Res.ensures_ok, hget,
    show i * L + ((j : Int) + 1).toNat = i * L + j + 1 by omega]
  subst hJ
  rw [List.set_append_right _ _ (by simp), List.take_succ_eq_append_getElem hp, List.map_append,
    List.append_assoc]
  congr 1
  simp only [List.length_map, List.length_take, Nat.min_eq_left hp.le, Nat.sub_self]
  rw [List.drop_eq_getElem_cons hp, List.set_cons_zero]
  simp

end map

/-- The value `normalize` stores for `v` when the extremes are `lo` and `hi`. -/
noncomputable def normVal (ρ : Rounding) (lo hi v : ℝ) : ℝ :=
  if ρ.f (hi - lo) = 0 then (if hi = 0 then v else 0)
  else ρ.f (ρ.f (v - lo) / ρ.f (hi - lo))

theorem normalize_spec {ds : Dataset (F ρ)} {L : Nat} {R : List (List ℝ)} (h : ds.Holds L (R.map fins))
    (h1 : 1 ≤ L) (h2 : L < 2 ^ 31) (hR : 1 ≤ R.length) (hpar : Even L ∨ Odd R.length) :
    ∃ lo hi ds', ds.normalize = (.ok (F.fin lo, F.fin hi), ds') ∧ IsLeast (values R) lo ∧
      IsGreatest (values R) hi ∧ ds'.Holds L (R.map fun r => fins (r.map (normVal ρ lo hi))) ∧
      ds'.gen = ds.gen := by
  obtain ⟨slack, hd⟩ := h.data
  have hcount := h.itemCount
  rw [List.length_map] at hcount
  have hrows : ∀ r ∈ R, r.length = L := by
    intro r hr
    simpa using h.rows (fins r) (List.mem_map_of_mem hr)
  unfold Dataset.normalize
  have hne : (L : Int) * (R.length : Int) ≠ 0 := by
    rw [← Int.natCast_mul]
    have : 0 < L * R.length := Nat.mul_pos (by omega) (by omega)
    omega
  rw [hcount, h.itemLength]
  dsimp only
  rw [if_neg hne]
  have hpar' : ((L : Int) * (R.length : Int)).tmod 2 ≠ 0 ↔ L % 2 = 1 := by
    have e : ((L : Int) * (R.length : Int)).tmod 2 = ((L * R.length % 2 : Nat) : Int) := by
      rw [← Int.natCast_mul]
      rfl
    rw [e]
    rcases hpar with hp | hp
    · have h3 : L % 2 = 0 := Nat.even_iff.mp hp
      have h4 : L * R.length % 2 = 0 := by rw [Nat.mul_mod, h3]; simp
      omega
    · have h3 : R.length % 2 = 1 := Nat.odd_iff.mp hp
      have h4 : L * R.length % 2 = L % 2 := by rw [Nat.mul_mod, h3]; simp
      omega
  obtain ⟨mm, hmm, hM⟩ := scan_spec (ρ := ρ) (slack := slack) rfl hrows h1 h2 _ hpar'
  have hbuf : ds.buf = .ok ((R.map fins).flatten ++ slack) := by simp [Dataset.buf, hd]
  rcases hM with ⟨hS, _⟩ | ⟨lo, hi, rfl, hlo, hhi⟩
  · exfalso
    have hr : 0 < R.length := by omega
    have hl := hrows _ (List.getElem_mem hr)
    have : (R[0])[0]'(by omega) ∈ values R := ⟨_, List.getElem_mem hr, List.getElem_mem _⟩
    rw [hS] at this
    exact this
  · have hflat : (R.map (fins (ρ := ρ))).flatten.length = R.length * L := by
      have := flatten_length h.rows
      simpa using this
    have hmap : ∀ g : F ρ → F ρ, mapRows g R.length L ((R.map fins).flatten ++ slack) =
        .ok (((R.map fins).flatten).map g ++ slack) := by
      intro g
      rw [mapRows_spec g R.length L h2 _ (by rw [List.length_append, hflat]; omega),
        List.take_left' hflat, List.drop_left' hflat]
    have hmapR : ∀ (g : F ρ → F ρ) (g' : ℝ → ℝ), (∀ v, g (F.fin v) = F.fin (g' v)) →
        ((R.map fins).flatten).map g = (R.map fun r => fins (r.map g')).flatten := by
      intro g g' hg
      rw [List.map_flatten, List.map_map]
      congr 1
      apply List.map_congr_left
      intro r _
      simp [fins, hg]
    have holds : ∀ (g' : ℝ → ℝ) (b : List (F ρ)) (n : Bool), b = (R.map fun r => fins (r.map g')).flatten ++ slack →
        ({ ds with data := some b, itemLength := L, itemCount := R.length, normalized := n } : Dataset (F ρ)).Holds L (R.map fun r => fins (r.map g')) := by
      intro g' b n hb
      refine ⟨?_, rfl, ?_, slack, by rw [hb]⟩
      · intro r hr
        obtain ⟨r', hr', rfl⟩ := List.mem_map.mp hr
        simpa using hrows r' hr'
      · simp
    refine ⟨lo, hi, ?_⟩
    rw [hbuf]
    simp only [Res.bind_ok, hmm, sub_fin, zero_F]
    by_cases hz : ρ.f (hi - lo) = 0
    · have e1 : DataT.eq (F.fin (ρ.f (hi - lo)) : F ρ) (F.fin 0) = true := by simp [hz]
      rw [if_pos e1]
      by_cases hh : hi = 0
      · have e2 : ¬ (!DataT.eq (F.fin hi : F ρ) (F.fin 0)) = true := by simp [hh]
        rw [if_neg e2]
        refine ⟨_, rfl, hlo, hhi, holds _ _ true ?_, rfl⟩
        have : R = R.map fun r => r.map (normVal ρ lo hi) := by
          conv_lhs => rw [← List.map_id R]
          apply List.map_congr_left
          intro r _
          have : (normVal ρ lo hi) = id := by
            funext v
            unfold normVal
            rw [if_pos hz, if_pos hh]
            rfl
          simp [this]
        conv_lhs => rw [this, List.map_map]
        rfl
      · have e2 : (!DataT.eq (F.fin hi : F ρ) (F.fin 0)) = true := by
          have : DataT.eq (F.fin hi : F ρ) (F.fin 0) ≠ true := fun h => hh ((eq_fin _ _).mp h)
          simp [this]
        rw [if_pos e2, hmap]
        refine ⟨_, rfl, hlo, hhi, holds _ _ true ?_, rfl⟩
        rw [hmapR _ (normVal ρ lo hi)]
        intro v
        simp [normVal, hz, hh]
    · have e1 : ¬ DataT.eq (F.fin (ρ.f (hi - lo)) : F ρ) (F.fin 0) = true := fun h => hz ((eq_fin _ _).mp h)
      rw [if_neg e1, hmap]
      refine ⟨_, rfl, hlo, hhi, holds _ _ true ?_, rfl⟩
      rw [hmapR _ (normVal ρ lo hi)]
      intro v
      rw [sub_fin, div_fin _ _ hz]
      simp [normVal, hz]

end Onex
