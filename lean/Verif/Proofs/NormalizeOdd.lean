import Verif.Props.Normalize

/-!
# Normalising an even number of series of odd length

The scan then starts at 0 and takes pairs, so it does not look at the last value of a series.
-/

namespace Onex
open DataT Spec

variable {ρ : Rounding}

/-- The scan of a row of odd length in pairs from the front leaves out the last element. -/
theorem scanRow_odd {b : List (F ρ)} {L : Nat} {ts : Nat} {row : List ℝ} (hrow : row.length = L) (hb : (b.drop (ts * L)).take L = fins row)
    (hodd : L % 2 = 1) (h2 : L < 2 ^ 31) (length : Int) (hpar : length.tmod 2 = 0) {S : Set ℝ} {mm : F ρ × F ρ} (h : MM S mm) :
    (scanRow b length L ts mm).Ensures (MM (S ∪ {x | x ∈ row.dropLast})) := by
  unfold scanRow
  have hl : ¬ length.tmod 2 ≠ 0 := fun h => h hpar
  simp only [if_neg hl, ne_eq, not_true_eq_false, if_false, Res.pure_eq, Res.bind_ok]
  unfold forInt2
  have e1 : toUnsigned ((L : Int) - 1) = (L : Int) - 1 := by
    unfold toUnsigned
    apply Int.emod_eq_of_lt <;> omega
  have e2 : ((toUnsigned ((L : Int) - 1) - 0 + 1) / 2) = ((L / 2 : ℕ) : Int) := by rw [e1]; omega
  rw [e2]
  refine (forInt_ensures (fun (j : Int) (mm : F ρ × F ρ) => MM (S ∪ firsts row (2 * j.toNat)) mm) (by omega) ?_ ?_).mono ?_
  · have e0 : firsts row 0 = ∅ := by ext x; simp [firsts]
    simpa [e0] using h
  · intro j mm hj0 hj1 hI
    obtain ⟨j, rfl⟩ := Int.eq_ofNat_of_zero_le hj0
    have hb1 := vget_row hrow hb (2 * j) (by omega)
    have hb2 := vget_row hrow hb (2 * j + 1) (by omega)
    push_cast at hb1 hb2
    dsimp only
    rw [zero_add, hb1, hb2]
    simp only [Res.bind_ok, Res.ensures_ok]
    have e3 : 2 * (((j : Int) + 1).toNat) = 2 * j + 1 + 1 := by omega
    rw [e3, firsts_succ (by omega), firsts_succ (by omega)]
    rw [Int.toNat_natCast] at hI
    generalize hx : row[2 * j]'(by omega) = x
    generalize hy : row[2 * j + 1]'(by omega) = y
    have g : gt (F.fin x : F ρ) (F.fin y) = true ↔ y < x := lt_fin _ _
    rw [Set.union_insert, Set.union_insert]
    by_cases hxy : y < x
    · rw [if_pos (g.mpr hxy)]
      exact mm_two hI y x hxy.le
    · rw [if_neg (fun h => hxy (g.mp h)), Set.insert_comm]
      exact mm_two hI x y (not_lt.mp hxy)
  · intro mm hmm
    rw [Int.toNat_natCast, show 2 * (L / 2) = row.length - 1 by omega] at hmm
    have : firsts row (row.length - 1) = {x | x ∈ row.dropLast} := by
      ext x
      simp [firsts, List.dropLast_eq_take]
    rwa [this] at hmm

/-- Scanning all rows. -/
theorem scan_odd {b : List (F ρ)} {L : Nat} {R : List (List ℝ)} {slack : List (F ρ)} (hb : b = (R.map fins).flatten ++ slack)
    (hrows : ∀ r ∈ R, r.length = L) (hodd : L % 2 = 1) (h2 : L < 2 ^ 31) (length : Int) (hpar : length.tmod 2 = 0) :
    (forInt 0 R.length ((inf, ninf) : F ρ × F ρ) fun ts mm => scanRow b length L ts mm).Ensures (MM (values (R.map List.dropLast))) := by
  refine (forInt_ensures (fun (ts : Int) (mm : F ρ × F ρ) => MM (values ((R.map List.dropLast).take ts.toNat)) mm) (by omega) ?_ ?_).mono ?_
  · left
    refine ⟨?_, rfl⟩
    ext x
    simp [values]
  · intro ts mm h3 h4 hI
    obtain ⟨i, rfl⟩ := Int.eq_ofNat_of_zero_le h3
    have hi : i < R.length := by omega
    rw [Int.toNat_natCast] at hI
    rw [show (((i : Int) + 1).toNat) = i + 1 by omega, values_take_succ (by simpa using hi), List.getElem_map]
    refine scanRow_odd (hrows _ (List.getElem_mem hi)) ?_ hodd h2 length hpar hI
    have hrows' : ∀ r ∈ R.map (fins (ρ := ρ)), r.length = L := by
      intro r hr
      obtain ⟨r', hr', rfl⟩ := List.mem_map.mp hr
      simpa using hrows r' hr'
    have := flatten_window hrows' slack i (by simpa using hi) 0 L (by omega)
    rw [Nat.add_zero] at this
    rw [hb, this]
    have hl := hrows _ (List.getElem_mem hi)
    simp [← hl]
  · intro mm hmm
    rw [Int.toNat_natCast, show R.length = (R.map List.dropLast).length by simp, List.take_length] at hmm
    exact hmm

/-- What normalising does with the extremes `mm` that the scan found. -/
noncomputable def normMap (mm : F ρ × F ρ) (v : F ρ) : F ρ :=
  if DataT.eq (sub mm.2 mm.1) zero then (if !(DataT.eq mm.2 zero) then zero else v) else div (sub v mm.1) (sub mm.2 mm.1)

theorem normalize_scan {ds : Dataset (F ρ)} {L : Nat} {R : List (List ℝ)} (h : ds.Holds L (R.map fins)) (h1 : 1 ≤ L) (h2 : L < 2 ^ 31)
    (hR : 1 ≤ R.length) {mm : F ρ × F ρ}
    (hs : ∀ slack : List (F ρ), (forInt 0 R.length ((inf, ninf) : F ρ × F ρ) fun ts mm =>
      scanRow ((R.map fins).flatten ++ slack) ((L : Int) * R.length) L ts mm) = .ok mm) :
    ∃ ds', ds.normalize = (.ok mm, ds') ∧ ds'.Holds L (R.map fun r => (fins r).map (normMap mm)) := by
  obtain ⟨slack, hd⟩ := h.data
  have hcount := h.itemCount
  rw [List.length_map] at hcount
  have hrows : ∀ r ∈ R, r.length = L := by
    intro r hr
    simpa using h.rows (fins r) (List.mem_map_of_mem hr)
  unfold Dataset.normalize
  have hne : (L : Int) * (R.length : Int) ≠ 0 := by
    rw [← Int.natCast_mul]
    have : 0 < L * R.length := Nat.mul_pos (by omega) (by omega)
    omega
  rw [hcount, h.itemLength]
  dsimp only
  rw [if_neg hne]
  have hbuf : ds.buf = .ok ((R.map fins).flatten ++ slack) := by simp [Dataset.buf, hd]
  have hflat : (R.map (fins (ρ := ρ))).flatten.length = R.length * L := by
    have := flatten_length h.rows
    simpa using this
  have hmap : ∀ g : F ρ → F ρ, mapRows g R.length L ((R.map fins).flatten ++ slack) = .ok ((R.map fun r => (fins r).map g).flatten ++ slack) := by
    intro g
    rw [mapRows_spec g R.length L h2 _ (by rw [List.length_append, hflat]; omega), List.take_left' hflat, List.drop_left' hflat,
      List.map_flatten, List.map_map]
    rfl
  have holds : ∀ (g : F ρ → F ρ) (b : List (F ρ)) (n : Bool), b = (R.map fun r => (fins r).map g).flatten ++ slack →
      ({ ds with data := some b, itemLength := L, itemCount := R.length, normalized := n } : Dataset (F ρ)).Holds L (R.map fun r => (fins r).map g) := by
    intro g b n hb
    refine ⟨?_, rfl, by simp, slack, by rw [hb]⟩
    intro r hr
    obtain ⟨r', hr', rfl⟩ := List.mem_map.mp hr
    simpa using hrows r' hr'
  rw [hbuf]
  simp only [Res.bind_ok, hs]
  by_cases hz : DataT.eq (sub mm.2 mm.1) zero = true
  · rw [if_pos hz]
    by_cases hh : (!(DataT.eq mm.2 zero)) = true
    · rw [if_pos hh, hmap]
      refine ⟨_, rfl, holds _ _ true ?_⟩
      congr 3
      funext r
      congr 1
      funext v
      rw [normMap, if_pos hz, if_pos hh]
    · rw [if_neg hh]
      refine ⟨_, rfl, holds _ _ true ?_⟩
      congr 3
      funext r
      have : normMap mm = id := by
        funext v
        rw [normMap, if_pos hz, if_neg hh]
        rfl
      simp [this]
  · rw [if_neg hz, hmap]
    refine ⟨_, rfl, holds _ _ true ?_⟩
    congr 3
    funext r
    congr 1
    funext v
    rw [normMap, if_neg hz]

theorem normMap_fin (lo hi v : ℝ) : normMap (ρ := ρ) (F.fin lo, F.fin hi) (F.fin v) = F.fin (normVal ρ lo hi v) := by
  unfold normMap normVal
  simp only [sub_fin, zero_F]
  by_cases hz : ρ.f (hi - lo) = 0
  · have e1 : DataT.eq (F.fin (ρ.f (hi - lo)) : F ρ) (F.fin 0) = true := by simp [hz]
    rw [if_pos e1, if_pos hz]
    by_cases hh : hi = 0
    · simp [hh]
    · have e2 : DataT.eq (F.fin hi : F ρ) (F.fin 0) ≠ true := fun h => hh ((eq_fin _ _).mp h)
      simp [e2, hh]
  · have e1 : ¬ DataT.eq (F.fin (ρ.f (hi - lo)) : F ρ) (F.fin 0) = true := fun h => hz ((eq_fin _ _).mp h)
    rw [if_neg e1, if_neg hz, div_fin _ _ hz]

theorem odd_even_tmod {L n : ℕ} (hn : Even n) : ((L : Int) * n).tmod 2 = 0 := by
  have e : ((L : Int) * (n : Int)).tmod 2 = ((L * n % 2 : Nat) : Int) := by
    rw [← Int.natCast_mul]
    rfl
  have h4 : L * n % 2 = 0 := by rw [Nat.mul_mod, Nat.even_iff.mp hn]; simp
  omega

theorem normalize_odd {ds : Dataset (F ρ)} {L : Nat} {R : List (List ℝ)} (h : ds.Holds L (R.map fins)) (h3 : 3 ≤ L) (h2 : L < 2 ^ 31)
    (hR : 1 ≤ R.length) (hodd : Odd L) (heven : Even R.length) :
    ∃ lo hi ds', ds.normalize = (.ok (F.fin lo, F.fin hi), ds') ∧ IsLeast (values (R.map List.dropLast)) lo ∧
      IsGreatest (values (R.map List.dropLast)) hi ∧ ds'.Holds L (R.map fun r => fins (r.map (normVal ρ lo hi))) := by
  have hrows : ∀ r ∈ R, r.length = L := by
    intro r hr
    simpa using h.rows (fins r) (List.mem_map_of_mem hr)
  have hscan := fun slack => scan_odd (ρ := ρ) (slack := slack) rfl hrows (Nat.odd_iff.mp hodd) h2 _ (odd_even_tmod (L := L) heven)
  have hne : (values (R.map List.dropLast)).Nonempty := by
    have hr : 0 < R.length := by omega
    have hl := hrows _ (List.getElem_mem hr)
    exact ⟨(R[0].dropLast)[0]'(by simp; omega), _, List.mem_map_of_mem (List.getElem_mem hr), List.getElem_mem _⟩
  have key : ∀ slack, ∃ lo hi, (forInt 0 R.length ((inf, ninf) : F ρ × F ρ) fun ts mm =>
      scanRow ((R.map fins).flatten ++ slack) ((L : Int) * R.length) L ts mm) = .ok (F.fin lo, F.fin hi) ∧
      IsLeast (values (R.map List.dropLast)) lo ∧ IsGreatest (values (R.map List.dropLast)) hi := by
    intro slack
    obtain ⟨mm, hmm, hM⟩ := hscan slack
    rcases hM with ⟨hS, _⟩ | ⟨lo, hi, rfl, hlo, hhi⟩
    · rw [hS] at hne
      exact absurd hne Set.not_nonempty_empty
    · exact ⟨lo, hi, hmm, hlo, hhi⟩
  obtain ⟨lo, hi, _, hlo, hhi⟩ := key []
  obtain ⟨ds', h4, h5⟩ := normalize_scan h (by omega) h2 hR (mm := (F.fin lo, F.fin hi)) (by
    intro slack
    obtain ⟨lo', hi', e, hlo', hhi'⟩ := key slack
    rw [e, hlo.unique hlo', hhi.unique hhi'])
  refine ⟨lo, hi, ds', h4, hlo, hhi, ?_⟩
  have e : (R.map fun r => (fins r).map (normMap (ρ := ρ) (F.fin lo, F.fin hi))) = R.map fun r => fins (r.map (normVal ρ lo hi)) := by
    refine List.map_congr_left fun r _ => ?_
    simp only [fins, List.map_map]
    refine List.map_congr_left fun v _ => ?_
    exact normMap_fin lo hi v
  rwa [e] at h5

/-- One column: nothing is looked at. -/
theorem normalize_column {ds : Dataset (F ρ)} {R : List (List ℝ)} (h : ds.Holds 1 (R.map fins)) (hR : 1 ≤ R.length) (heven : Even R.length) :
    ∃ ds', ds.normalize = (.ok (F.pinf, F.ninf), ds') ∧ ds'.Holds 1 (R.map fun _ => [F.nan]) := by
  have hrows : ∀ r ∈ R, r.length = 1 := by
    intro r hr
    simpa using h.rows (fins r) (List.mem_map_of_mem hr)
  obtain ⟨ds', h4, h5⟩ := normalize_scan h le_rfl (by norm_num) hR (mm := (F.pinf, F.ninf)) (by
    intro slack
    obtain ⟨mm, hmm, hM⟩ := scan_odd (ρ := ρ) (slack := slack) rfl hrows rfl (by norm_num) _ (odd_even_tmod (L := 1) heven)
    rcases hM with ⟨_, rfl⟩ | ⟨lo, hi, rfl, hlo, hhi⟩
    · exact hmm
    · exfalso
      obtain ⟨r, hr, hx⟩ := hlo.1
      obtain ⟨r', hr', rfl⟩ := List.mem_map.mp hr
      have := List.length_pos_of_mem hx
      rw [List.length_dropLast, hrows r' hr'] at this
      omega)
  refine ⟨ds', h4, ?_⟩
  have e : (R.map fun r => (fins r).map (normMap (ρ := ρ) (F.pinf, F.ninf))) = R.map fun _ => [F.nan] := by
    refine List.map_congr_left fun r hr => ?_
    obtain ⟨v, rfl⟩ := List.length_eq_one_iff.mp (hrows r hr)
    have s1 : sub (F.ninf : F ρ) F.pinf = F.ninf := rfl
    have s2 : sub (F.fin v : F ρ) F.pinf = F.ninf := rfl
    have e1 : DataT.eq (F.ninf : F ρ) (F.fin 0) = false := by
      rw [Bool.eq_false_iff]
      exact fun h => (eq_iff _ _).mp h
    have d : div (F.ninf : F ρ) F.ninf = F.nan := rfl
    simp [fins, normMap, s1, s2, e1, d]
  rwa [e] at h5

end Onex
