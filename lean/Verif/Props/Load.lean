import Verif.Proofs.Save
import Verif.Model.Flt

/-!
# Properties of loading, saving and reading datasets: C17, C18, C19, C24
-/

namespace Onex
open Spec

set_option linter.unusedSectionVars false
variable {α : Type} [DataT α]

/-! ## C17 -/

/-- C17: `getTimeSeries` throws exactly for a bad index or a bad window, in every state of the dataset; and
it never has undefined behaviour. -/
theorem C17_throws_iff (ds : Dataset α) (index start stop : Int) :
    (∃ m : String, ds.getTimeSeries index start stop = .throw m) ↔
      ¬ ((0 ≤ index ∧ index < ds.itemCount) ∧
        ((start < 0 ∧ stop < 0) ∨ (0 ≤ start ∧ start < stop ∧ stop ≤ ds.itemLength))) := by
  unfold Dataset.getTimeSeries
  split
  · rename_i h
    refine ⟨fun _ h' => by omega, fun _ => ⟨_, rfl⟩⟩
  · rename_i h
    split
    · rename_i h'
      refine ⟨fun ⟨m, hm⟩ => (by cases hm), fun hn => absurd ⟨by omega, .inl h'⟩ hn⟩
    · rename_i h'
      split
      · rename_i h''
        exact ⟨fun _ h' => by omega, fun _ => ⟨_, rfl⟩⟩
      · rename_i h''
        exact ⟨fun ⟨m, hm⟩ => (by cases hm), fun hn => absurd ⟨by omega, .inr (by omega)⟩ hn⟩

theorem C17_never_undefined (ds : Dataset α) (index start stop : Int) :
    ¬ (ds.getTimeSeries index start stop).IsUb := by
  unfold Dataset.getTimeSeries
  split
  · exact id
  · split
    · exact id
    · split <;> exact id

/-- C17: a window that is not rejected denotes the values `start..stop-1` of row `index`, and its length is
`stop - start`. -/
theorem C17_window_values {ds : Dataset α} {L : Nat} {R : List (List α)} (h : ds.Holds L R)
    (i s e : Nat) (hi : i < R.length) (hse : s < e) (he : e ≤ L) :
    ∃ v, ds.getTimeSeries i s e = .ok v ∧ v.length = e - s ∧
      ds.resolve v = .ok ((R[i].drop s).take (e - s)) := by
  refine ⟨⟨ds.gen, i * ds.itemLength, i, s, e⟩, ?_, rfl, ?_⟩
  · unfold Dataset.getTimeSeries
    rw [if_neg (by rw [h.itemCount]; omega), if_neg (by omega), if_neg (by rw [h.itemLength]; omega)]
  · obtain ⟨slack, hd⟩ := h.data
    unfold Dataset.resolve Dataset.buf
    have h1 : (i + 1) * L ≤ R.length * L := Nat.mul_le_mul_right _ hi
    have h2 := flatten_length h.rows
    have h3 : (i + 1) * L = i * L + L := by ring
    have e1 : ((i : Int) * (L : Int) + (s : Int)) = ((i * L + s : Nat) : Int) := by push_cast; ring
    have e2 : ((i : Int) * (L : Int) + (e : Int)) = ((i * L + e : Nat) : Int) := by push_cast; ring
    rw [if_neg (by simp), if_neg (by simp; omega)]
    simp only [hd, Res.bind_ok, h.itemLength, e1, e2]
    rw [if_pos ⟨by omega, by
      simp only [len, List.length_append, h2]
      omega⟩, Int.toNat_natCast, show ((e : Int) - (s : Int)).toNat = e - s by omega,
      flatten_window h.rows slack i hi s (e - s) (by omega)]

/-- C17: two negative positions mean the whole row. -/
theorem C17_whole_row {ds : Dataset α} {L : Nat} {R : List (List α)} (h : ds.Holds L R)
    (i : Nat) (hi : i < R.length) (s e : Int) (hs : s < 0) (he : e < 0) :
    ∃ v, ds.getTimeSeries i s e = .ok v ∧ v.length = L ∧ ds.resolve v = .ok R[i] := by
  refine ⟨⟨ds.gen, i * ds.itemLength, i, 0, ds.itemLength⟩, ?_, by simp [View.length, h.itemLength], ?_⟩
  · unfold Dataset.getTimeSeries
    rw [if_neg (by rw [h.itemCount]; omega), if_pos ⟨hs, he⟩]
  · have hrow := h.rows _ (List.getElem_mem hi)
    by_cases hL : L = 0
    · subst hL
      unfold Dataset.resolve
      rw [if_neg (by simp), if_pos (by simp [h.itemLength])]
      rw [List.length_eq_zero_iff.mp hrow]
    · obtain ⟨v, h1, _, h3⟩ := C17_window_values h i 0 L hi (by omega) (le_refl _)
      unfold Dataset.getTimeSeries at h1
      rw [if_neg (by rw [h.itemCount]; omega), if_neg (by omega), if_neg (by rw [h.itemLength]; omega)] at h1
      cases h1
      rw [h.itemLength] at h3 ⊢
      simpa [← hrow] using h3

/-- C17: element access through the view reads row `index` at `start + k`. -/
theorem C17_window_element {ds : Dataset α} {L : Nat} {R : List (List α)} (h : ds.Holds L R)
    (i s e k : Nat) (hi : i < R.length) (hk : s + k < e) (he : e ≤ L) :
    ∃ v, ds.getTimeSeries i s e = .ok v ∧
      ds.viewGet v k = .ok (R[i][s + k]'(by rw [h.rows _ (List.getElem_mem hi)]; omega)) := by
  obtain ⟨v, h1, h2, _⟩ := C17_window_values h i s e hi (by omega) he
  refine ⟨v, h1, ?_⟩
  unfold Dataset.getTimeSeries at h1
  rw [if_neg (by rw [h.itemCount]; omega), if_neg (by omega), if_neg (by rw [h.itemLength]; omega)] at h1
  cases h1
  obtain ⟨b, hb, hv⟩ := h.vget i (s + k) hi (by omega)
  unfold Dataset.viewGet Dataset.buf
  rw [if_neg (by simp only [View.length]; omega), if_neg (by simp)]
  simp only [hb, Res.bind_ok]
  rw [← hv]
  congr 1
  push_cast
  ring

/-- Non-trivial case for C17: two rows of length 3 and some unused memory. -/
example (a b c d e f g : α) (n : Nat) (p : String) :
    (⟨some [a, b, c, d, e, f, g], n, 3, 2, p, false⟩ : Dataset α).Holds 3 [[a, b, c], [d, e, f]] :=
  ⟨by simp, rfl, rfl, [g], rfl⟩

/-! ## C18 -/

/-- The number of rows to be read, from the property statement. -/
def Spec.rowsToRead (maxNumRow : Int) (n : Nat) : Nat :=
  if maxNumRow ≤ 0 then n else min maxNumRow.toNat n

theorem rowLimit_eq (maxNumRow : Int) (lines : List Text) :
    rowLimit maxNumRow (len lines) = (rowsToRead maxNumRow lines.length : Int) := by
  simp only [rowLimit, len, rowsToRead]
  split <;> omega

theorem rowsToRead_le (m : Int) (n : Nat) : rowsToRead m n ≤ n := by
  unfold rowsToRead
  split <;> omega

/-- C18. `text` has the lines `lines`; the first `k` of them have `c` tokens each (`toks`); `R` are the
numbers that the tokens from column `s` on denote. Nothing is assumed about later lines. -/
theorem C18_load_rectangular (stod : Text → Stod α) {text : Text} {lines : List Text}
    (hf : FileHas text lines) (seps : Text) (maxNumRow : Int) (s c k : Nat)
    (hk : k = rowsToRead maxNumRow lines.length) (hk1 : 1 ≤ k) (toks : List (List Text))
    (ht : List.Forall₂ (fun l ts => LineHas seps l ts ∧ ts.length = c) (lines.take k) toks)
    (hs : s ≤ c) (R : List (List α))
    (hR : List.Forall₂ (fun ts row => List.Forall₂ (fun t x => stod t = .val x) (ts.drop s) row) toks R)
    (ds : Dataset α) (path : String) :
    ∃ ds', ds.loadData stod (some text) path maxNumRow s seps = (.ok (), ds') ∧
      ds'.itemCount = k ∧ ds'.itemLength = (c : Int) - s ∧ ds'.Holds (c - s) R := by
  have hlines := getLines_of_fileHas hf
  have hlim := rowLimit_eq maxNumRow lines
  rw [← hk] at hlim
  have hrows : List.Forall₂ (RowHas stod seps c s) (lines.take k) R := by
    have hlen1 := ht.length_eq
    have hlen2 := hR.length_eq
    refine List.forall₂_iff_get.mpr ⟨by omega, ?_⟩
    intro i h1 h2
    have g1 := (List.forall₂_iff_get.mp ht).2 i h1 (by omega)
    have g2 := (List.forall₂_iff_get.mp hR).2 i (by omega) h2
    refine ⟨?_, ?_⟩
    · rw [tokenize_of_lineHas g1.1]; exact g1.2
    · rw [tokenize_of_lineHas g1.1]; exact g2
  have hle := rowsToRead_le maxNumRow lines.length
  have hklen : (lines.take k).length = k := by rw [List.length_take]; omega
  have hRlen : R.length = k := by rw [← hrows.length_eq, hklen]
  obtain ⟨slack, h1, _⟩ := loadRows_spec stod seps c s (lines.take k) R hrows (by
    intro e
    rw [e] at hklen
    simp at hklen
    omega)
  rw [hklen] at h1
  unfold Dataset.loadData
  simp only [hlines, hlim, Int.toNat_natCast, h1]
  refine ⟨_, rfl, ?_, rfl, ⟨?_, ?_, ?_, slack, rfl⟩⟩
  · simp [len, hklen]
  · intro r hr
    obtain ⟨i, hi, rfl⟩ := List.getElem_of_mem hr
    have := (List.forall₂_iff_get.mp hrows).2 i (by rw [hrows.length_eq]; exact hi) hi
    simpa using rowHas_length this
  · simp only
    omega
  · simp [len, hklen, hRlen]

/-- Non-trivial case for C18: three lines, two of them read, first column skipped; the third line is ragged. -/
example : ∃ (lines : List Text) (toks : List (List Text)) (R : List (List (F Rounding.exact))),
    FileHas "a,1,22\nb,333,1\nrubbish".toList lines ∧ rowsToRead 2 lines.length = 2 ∧
      List.Forall₂ (fun l ts => LineHas [',', ' '] l ts ∧ ts.length = 3) (lines.take 2) toks ∧
      List.Forall₂ (fun ts row => List.Forall₂ (fun t x =>
        (fun t : Text => if t = ['a'] then Stod.invalid else Stod.val (F.fin (t.length : ℝ))) t = .val x)
          (ts.drop 1) row) toks R := by
  refine ⟨["a,1,22".toList, "b,333,1".toList, "rubbish".toList],
    [["a".toList, "1".toList, "22".toList], ["b".toList, "333".toList, "1".toList]],
    [[F.fin 1, F.fin 2], [F.fin 3, F.fin 1]], ?_, rfl, ?_, ?_⟩
  · have := fileHas_getLines "a,1,22\nb,333,1\nrubbish".toList
    simpa [getLines] using this
  · simp only [List.take_succ_cons, List.take_zero]
    refine .cons ⟨?_, rfl⟩ (.cons ⟨?_, rfl⟩ .nil)
    · have := lineHas_tokenize [',', ' '] _ "a,1,22".toList (le_refl _)
      simpa [tokenize, List.splitOnP_cons_eq_if_modifyHead] using this
    · have := lineHas_tokenize [',', ' '] _ "b,333,1".toList (le_refl _)
      simpa [tokenize, List.splitOnP_cons_eq_if_modifyHead] using this
  · refine .cons (.cons ?_ (.cons ?_ .nil)) (.cons (.cons ?_ (.cons ?_ .nil)) .nil) <;> simp

/-! ## C19 -/

/-- C19: a load that throws leaves no data, whatever was there before. -/
theorem C19_failed_load_is_empty (stod : Text → Stod α) (file : Option Text) (path : String)
    (maxNumRow startCol : Int) (seps : Text) (ds ds' : Dataset α) (e : Exc)
    (h : ds.loadData stod file path maxNumRow startCol seps = (.throw e, ds')) :
    ds'.data = none ∧ ds'.itemCount = 0 ∧ ds'.itemLength = 0 := by
  unfold Dataset.loadData at h
  cases file with
  | none => cases h; exact ⟨rfl, rfl, rfl⟩
  | some text =>
    dsimp only at h
    split at h
    · cases h; exact ⟨rfl, rfl, rfl⟩
    · cases h
    · cases h

/-- The rows of the file that are read form a table of numbers: same number of tokens in each, numbers from
column `s` on. -/
def Spec.Rectangular (stod : Text → Stod α) (seps : Text) (s : Nat) (lines : List Text) : Prop :=
  ∃ c : Nat, ∀ l ∈ lines, ∃ ts, LineHas seps l ts ∧ ts.length = c ∧ ∀ t ∈ ts.drop s, ∃ x, stod t = .val x

theorem rectangular_iff (stod : Text → Stod α) (seps : Text) (s : Nat) (lines : List Text) :
    Rectangular stod seps s lines ↔ ∃ c R, List.Forall₂ (RowHas stod seps c s) lines R := by
  constructor
  · rintro ⟨c, h⟩
    refine ⟨c, ?_⟩
    induction lines with
    | nil => exact ⟨[], .nil⟩
    | cons l ls ih =>
      obtain ⟨R, hR⟩ := ih (fun l hl => h l (by simp [hl]))
      obtain ⟨ts, h1, h2, h3⟩ := h l (by simp)
      rcases parses_or_not stod (ts.drop s) with ⟨xs, hx⟩ | ⟨t, ht, hb⟩
      · exact ⟨xs :: R, .cons ⟨by rw [tokenize_of_lineHas h1]; exact h2, by rw [tokenize_of_lineHas h1]; exact hx⟩ hR⟩
      · obtain ⟨x, hx⟩ := h3 t ht
        exact absurd hx (hb x)
  · rintro ⟨c, R, h⟩
    refine ⟨c, ?_⟩
    intro l hl
    obtain ⟨i, hi, rfl⟩ := List.getElem_of_mem hl
    have := (List.forall₂_iff_get.mp h).2 i hi (by rw [← h.length_eq]; exact hi)
    refine ⟨_, lineHas_tokenize seps _ _ (le_refl _), this.1, ?_⟩
    intro t ht
    have h2 := this.2
    obtain ⟨j, hj, rfl⟩ := List.getElem_of_mem ht
    exact ⟨_, (List.forall₂_iff_get.mp h2).2 j hj (by rw [← h2.length_eq]; exact hj)⟩

/-- C19: a file that cannot be opened, has ragged rows or a token that is no number (among the rows and columns
to be read) is rejected with an `OnexException`; every other file is accepted. With a nonnegative start column
nothing undefined happens. -/
theorem C19_load_outcome (stod : Text → Stod α) (file : Option Text) (path : String)
    (maxNumRow : Int) (s : Nat) (seps : Text) (ds : Dataset α) :
    ((∃ m : String, (ds.loadData stod file path maxNumRow s seps).1 = .throw m) ∧
      ¬ ∃ text lines, file = some text ∧ FileHas text lines ∧
        Rectangular stod seps s (lines.take (rowsToRead maxNumRow lines.length))) ∨
    ((ds.loadData stod file path maxNumRow s seps).1 = .ok () ∧
      ∃ text lines, file = some text ∧ FileHas text lines ∧
        Rectangular stod seps s (lines.take (rowsToRead maxNumRow lines.length))) := by
  cases file with
  | none =>
    left
    refine ⟨⟨_, rfl⟩, ?_⟩
    rintro ⟨_, _, h, _⟩
    cases h
  | some text =>
    have hf := fileHas_getLines text
    generalize hl : getLines text = lines at hf
    have hlim := rowLimit_eq maxNumRow lines
    generalize hk : rowsToRead maxNumRow lines.length = k at hlim
    have hle := rowsToRead_le maxNumRow lines.length
    have hklen : (lines.take k).length = k := by rw [List.length_take]; omega
    by_cases hr : Rectangular stod seps s (lines.take k)
    · right
      refine ⟨?_, text, lines, rfl, hf, by rw [hk]; exact hr⟩
      unfold Dataset.loadData
      simp only [hl, hlim, Int.toNat_natCast]
      by_cases hne : lines.take k = []
      · simp [hne, loadRows]
      · obtain ⟨c, R, hR⟩ := (rectangular_iff stod seps s _).mp hr
        obtain ⟨slack, h1, _⟩ := loadRows_spec stod seps c s (lines.take k) R hR hne
        rw [hklen] at h1
        rw [h1]
    · left
      have hne : lines.take k ≠ [] := by
        intro e
        rw [e] at hr
        exact hr ⟨0, by simp⟩
      refine ⟨?_, ?_⟩
      · unfold Dataset.loadData
        simp only [hl, hlim, Int.toNat_natCast]
        obtain ⟨m, hm⟩ := loadRows_bad stod seps s (lines.take k) hne
          (fun h => hr ((rectangular_iff stod seps s _).mpr h))
        rw [hklen] at hm
        exact ⟨m, by rw [hm]⟩
      · rintro ⟨text', lines', h1, h2, h3⟩
        cases h1
        have : lines' = lines := by rw [← getLines_of_fileHas h2, hl]
        subst this
        rw [hk] at h3
        exact hr h3

/-- C19: a load that succeeds leaves a dataset all of whose elements can be read. -/
theorem C19_successful_load_readable (stod : Text → Stod α) (file : Option Text) (path : String)
    (maxNumRow : Int) (s : Nat) (seps : Text) (ds ds' : Dataset α)
    (h : ds.loadData stod file path maxNumRow s seps = (.ok (), ds')) : ds'.Readable := by
  rcases C19_load_outcome stod file path maxNumRow s seps ds with ⟨⟨m, hm⟩, _⟩ | ⟨_, text, lines, rfl, hf, hr⟩
  · rw [h] at hm
    cases hm
  · obtain ⟨c, R, hR⟩ := (rectangular_iff stod seps s _).mp hr
    have hlim := rowLimit_eq maxNumRow lines
    generalize hk : rowsToRead maxNumRow lines.length = k at *
    have hle := rowsToRead_le maxNumRow lines.length
    have hklen : (lines.take k).length = k := by rw [List.length_take]; omega
    unfold Dataset.loadData at h
    simp only [getLines_of_fileHas hf, hlim, Int.toNat_natCast] at h
    by_cases hne : lines.take k = []
    · simp only [hne, loadRows] at h
      cases h
      exact ⟨le_refl _, fun _ => rfl, fun b hb => by cases hb⟩
    · obtain ⟨slack, h1, h2⟩ := loadRows_spec stod seps c s (lines.take k) R hR hne
      rw [hklen] at h1 h2
      rw [h1] at h
      cases h
      refine ⟨len_nonneg _, (fun hb => by cases hb), ?_⟩
      rintro b ⟨⟩
      rw [← List.length_append] at h2
      simp only [len, h2, hklen]
      push_cast
      apply mul_le_mul_of_nonneg_left _ (by omega)
      omega

/-- Non-trivial case for C19: a file whose second row is short is rejected, over a dataset with data. -/
example : ¬ Rectangular (fun _ => Stod.val (F.fin (ρ := Rounding.exact) 0)) [','] 0 ["1,2".toList, "3".toList] := by
  rintro ⟨c, h⟩
  obtain ⟨t1, h1, h2, _⟩ := h "1,2".toList (by simp)
  obtain ⟨t2, h3, h4, _⟩ := h "3".toList (by simp)
  have e1 := tokenize_of_lineHas h1
  have e2 := tokenize_of_lineHas h3
  simp [tokenize, List.splitOnP_cons_eq_if_modifyHead] at e1 e2
  rw [← e1] at h2
  rw [← e2] at h4
  simp at h2 h4
  omega

/-- Outside C19's reach: a negative start column writes outside the buffer. -/
theorem C19_negative_start_column_undefined (x : α) (ds : Dataset α) (path : String) :
    (ds.loadData (fun _ => .val x) (some "1".toList) path 0 (-1) [',']).1.IsUb := by
  simp [Dataset.loadData, getLines, rowLimit, tokenize, loadRows, List.splitOnP_cons_eq_if_modifyHead,
    loadTokens, vset, Res.IsUb]

/-! ## C24 -/

/-- C24. `shw` is the printed form of a value, `rt v` what reading it back gives. -/
theorem C24_save_load (stod : Text → Stod α) (shw : α → Text) (rt : α → α) {ds : Dataset α} {L : Nat}
    {R : List (List α)} (h : ds.Holds L R) (hL : 1 ≤ L) (hR : 1 ≤ R.length) (sep : Char) (hsep : sep ≠ '\n')
    (hs : ∀ r ∈ R, ∀ v ∈ r, shw v ≠ [] ∧ sep ∉ shw v ∧ '\n' ∉ shw v ∧ stod (shw v) = .val (rt v))
    (path : String) :
    ∃ text, ds.saveData shw true path sep = .ok text ∧
      ∀ (ds0 : Dataset α) (path' : String) (m : Int), m ≤ 0 →
        ∃ ds', ds0.loadData stod (some text) path' m 0 [sep] = (.ok (), ds') ∧
          ds'.itemCount = ds.itemCount ∧ ds'.itemLength = ds.itemLength ∧
          ds'.Holds L (R.map fun r => r.map rt) := by
  refine ⟨_, by simpa [Dataset.saveData] using saveText_spec h shw sep, ?_⟩
  intro ds0 path' m hm
  have hf := saveText_fileHas shw sep hsep R (fun r hr v hv => (hs r hr v hv).2.2.1)
  have hk : rowsToRead m (R.map (saveLine shw sep)).length = R.length := by
    simp [rowsToRead, hm]
  obtain ⟨ds', h1, h2, h3, h4⟩ := C18_load_rectangular stod hf [sep] m 0 L R.length hk.symm hR
    (R.map fun r => r.map shw) (by
      rw [List.take_of_length_le (by simp)]
      simp only [List.forall₂_map_left_iff, List.forall₂_map_right_iff]
      rw [List.forall₂_same]
      intro r hr
      refine ⟨saveLine_lineHas shw sep r (fun v hv => ⟨(hs r hr v hv).1, (hs r hr v hv).2.1⟩), ?_⟩
      simpa using h.rows r hr) (by omega) (R.map fun r => r.map rt) (by
      simp only [List.forall₂_map_left_iff, List.forall₂_map_right_iff]
      rw [List.forall₂_same]
      intro r hr
      rw [List.drop_zero]
      simp only [List.forall₂_map_left_iff]
      rw [List.forall₂_same]
      intro v hv
      exact (hs r hr v hv).2.2.2) ds0 path'
  refine ⟨ds', h1, ?_, ?_, h4⟩
  · rw [h2, h.itemCount]
  · rw [h3, h.itemLength]
    simp

/-- C24: saving fails only when the file cannot be opened. -/
theorem C24_save_fails (shw : α → Text) (ds : Dataset α) (path : String) (sep : Char) :
    ∃ m : String, ds.saveData shw false path sep = .throw m := ⟨_, rfl⟩

open Classical in
/-- Non-trivial case for C24: two rows of two values, printed as 'x' and 'yy'. -/
example : ∃ (shw : F Rounding.exact → Text) (stod : Text → Stod (F Rounding.exact)) (ds : Dataset (F Rounding.exact)),
    ds.Holds 2 [[F.fin 1, F.fin 2], [F.fin 2, F.fin 1]] ∧
    ∀ r ∈ [[F.fin 1, F.fin 2], [F.fin 2, F.fin 1]], ∀ v ∈ r,
      shw v ≠ [] ∧ ',' ∉ shw v ∧ '\n' ∉ shw v ∧ stod (shw v) = .val (id v) := by
  refine ⟨fun v => if v = F.fin 1 then ['x'] else ['y', 'y'], fun t => .val (F.fin t.length),
    ⟨some [F.fin 1, F.fin 2, F.fin 2, F.fin 1], 0, 2, 2, "", false⟩, ⟨by simp, rfl, rfl, [], rfl⟩, ?_⟩
  intro r hr v hv
  have : v = F.fin 1 ∨ v = F.fin 2 := by
    simp only [List.mem_cons, List.not_mem_nil, or_false] at hr
    rcases hr with rfl | rfl <;> simp at hv <;> tauto
  rcases this with rfl | rfl
  · simp
  · simp

end Onex
