import Verif.Proofs.Load

/-!
# `saveData` and reading datasets
-/

namespace Onex
open Spec

set_option linter.unusedSectionVars false
variable {α : Type} [DataT α]

theorem Dataset.Holds.readable {ds : Dataset α} {L : Nat} {R : List (List α)} (h : ds.Holds L R) :
    ds.Readable := by
  obtain ⟨slack, hd⟩ := h.data
  refine ⟨?_, ?_, ?_⟩
  · rw [h.itemCount]; omega
  · rw [hd]; intro h; cases h
  · rw [hd]
    rintro b ⟨⟩
    rw [h.itemCount, h.itemLength, len_append]
    have := flatten_length h.rows
    have h2 := len_nonneg slack
    simp only [len] at *
    rw [this]
    push_cast
    omega

/-- A readable dataset with data and nonnegative item length is a table. -/
theorem Dataset.Readable.holds {ds : Dataset α} (h : ds.Readable) {b : List α} (hb : ds.data = some b)
    (hl : 0 ≤ ds.itemLength) : ∃ L R, ds.Holds L R := by
  obtain ⟨L, hL⟩ := Int.eq_ofNat_of_zero_le hl
  obtain ⟨n, hn⟩ := Int.eq_ofNat_of_zero_le h.count
  have h1 := h.loaded b hb
  rw [hL, hn] at h1
  obtain ⟨R, h2, h3, slack, h4⟩ := exists_table L n b (by simp only [len] at h1; exact_mod_cast h1)
  exact ⟨L, R, h3, hL, by rw [hn, h2], slack, by rw [hb, h4]⟩

theorem Dataset.Holds.vget {ds : Dataset α} {L : Nat} {R : List (List α)} (h : ds.Holds L R) (i j : Nat)
    (hi : i < R.length) (hj : j < L) : ∃ b, ds.data = some b ∧
      Onex.vget b (i * ds.itemLength + j) = .ok (R[i][j]'(by rw [h.rows _ (List.getElem_mem hi)]; exact hj)) := by
  obtain ⟨slack, hd⟩ := h.data
  refine ⟨_, hd, ?_⟩
  rw [h.itemLength]
  apply vget_of_getElem? (by positivity)
  have : ((i : Int) * (L : Int) + (j : Int)).toNat = i * L + j := by
    rw [← Int.natCast_mul, ← Int.natCast_add, Int.toNat_natCast]
  rw [this, flatten_get h.rows slack i hi j hj]
  simp

/-- What is written for one row. -/
def saveLine (shw : α → Text) (sep : Char) (row : List α) : Text :=
  row.flatMap fun v => shw v ++ [sep]

theorem saveText_spec {ds : Dataset α} {L : Nat} {R : List (List α)} (h : ds.Holds L R)
    (shw : α → Text) (sep : Char) :
    ds.saveText shw sep = .ok (R.flatMap fun r => saveLine shw sep r ++ ['\n']) := by
  unfold Dataset.saveText
  apply Res.Ensures.eq_ok
  have := forInt_ensures (lo := 0) (hi := ds.itemCount) (s := ([] : Text))
    (body := fun i out => do
      let out ← forInt 0 ds.itemLength out fun j out => do
        let b ← ds.buf
        let v ← vget b (i * ds.itemLength + j)
        return out ++ shw v ++ [sep]
      return out ++ ['\n'])
    (fun i out => out = (R.take i.toNat).flatMap fun r => saveLine shw sep r ++ ['\n'])
    (by rw [h.itemCount]; omega) (by simp) ?_
  · refine this.mono ?_
    intro a ha
    rw [ha, h.itemCount]
    simp
  · intro i out h0 h1 hi
    obtain ⟨i, rfl⟩ := Int.eq_ofNat_of_zero_le h0
    rw [h.itemCount] at h1
    have hiR : i < R.length := by omega
    have hrow := h.rows _ (List.getElem_mem hiR)
    have inner := forInt_ensures (lo := 0) (hi := ds.itemLength) (s := out)
      (body := fun j out => do
        let b ← ds.buf
        let v ← vget b ((i : Int) * ds.itemLength + j)
        return out ++ shw v ++ [sep])
      (fun j o => o = out ++ saveLine shw sep (R[i].take j.toNat))
      (by rw [h.itemLength]; omega) (by simp [saveLine]) (by
        intro j o h2 h3 hj
        obtain ⟨j, rfl⟩ := Int.eq_ofNat_of_zero_le h2
        rw [h.itemLength] at h3
        have hjL : j < L := by omega
        obtain ⟨b, hb, hv⟩ := h.vget i j hiR hjL
        have hb' : ds.buf = .ok b := by simp [Dataset.buf, hb]
        rw [hb', Res.bind_ok, hv]
        simp only [Res.bind_ok, Res.pure_eq, Res.ensures_ok, hj]
        rw [show (((j : Int) + 1).toNat) = j + 1 by omega, List.take_succ_eq_append_getElem (by omega)]
        unfold saveLine
        rw [List.flatMap_append]
        simp [List.append_assoc])
    obtain ⟨o, ho, hoe⟩ := inner
    rw [ho]
    simp only [Res.bind_ok, Res.pure_eq, Res.ensures_ok]
    rw [hoe, hi, show (((i : Int) + 1).toNat) = i + 1 by omega, List.take_succ_eq_append_getElem hiR, h.itemLength,
      List.flatMap_append]
    simp [← hrow, List.append_assoc]

theorem saveLine_lineHas (shw : α → Text) (sep : Char) (row : List α)
    (hs : ∀ v ∈ row, shw v ≠ [] ∧ sep ∉ shw v) :
    LineHas [sep] (saveLine shw sep row) (row.map shw) := by
  -- by induction, with the separator written after the previous value in front
  have key : ∀ (row : List α) (pad : Text), (∀ c ∈ pad, c ∈ [sep]) → (∀ v ∈ row, shw v ≠ [] ∧ sep ∉ shw v) →
      LineHas [sep] (pad ++ saveLine shw sep row) (row.map shw) := by
    intro row
    induction row with
    | nil =>
      intro pad hp _
      simpa [saveLine] using LineHas.nil pad hp
    | cons v row ih =>
      intro pad hp h
      obtain ⟨h1, h2⟩ := h v (by simp)
      have := ih [sep] (by simp) (fun v hv => h v (by simp [hv]))
      have := LineHas.cons pad (shw v) _ _ hp h1 (by
        intro c hc hcs
        rw [List.mem_singleton] at hcs
        exact h2 (hcs ▸ hc)) (.inr ⟨sep, saveLine shw sep row, rfl, by simp⟩) this
      simpa [saveLine, List.append_assoc] using this
  simpa using key row [] (by simp) hs

theorem saveText_fileHas (shw : α → Text) (sep : Char) (hsep : sep ≠ '\n') (R : List (List α))
    (hs : ∀ r ∈ R, ∀ v ∈ r, '\n' ∉ shw v) :
    FileHas (R.flatMap fun r => saveLine shw sep r ++ ['\n']) (R.map (saveLine shw sep)) := by
  induction R with
  | nil => exact .nil
  | cons r R ih =>
    have := FileHas.cons (saveLine shw sep r) _ _ (by
      intro hc
      simp only [saveLine, List.mem_flatMap, List.mem_append, List.mem_singleton] at hc
      obtain ⟨v, hv, h | h⟩ := hc
      · exact hs r (by simp) v hv h
      · exact hsep h.symm) (ih (fun r hr => hs r (by simp [hr])))
    simpa [List.append_assoc] using this

end Onex
