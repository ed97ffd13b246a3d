import Verif.Proofs.Table
import Mathlib.Data.List.Forall2

/-!
# `loadData` and `saveData`
-/

namespace Onex
open Spec

set_option linter.unusedSectionVars false

variable {α : Type} [DataT α]

/-- All tokens are numbers, `xs` their values. -/
def Parses (stod : Text → Stod α) (toks : List Text) (xs : List α) : Prop :=
  List.Forall₂ (fun t x => stod t = .val x) toks xs

theorem parses_or_not (stod : Text → Stod α) (toks : List Text) :
    (∃ xs, Parses stod toks xs) ∨ ∃ t ∈ toks, ∀ x, stod t ≠ .val x := by
  induction toks with
  | nil => exact .inl ⟨[], .nil⟩
  | cons t toks ih =>
    rcases ih with ⟨xs, h⟩ | ⟨t', h1, h2⟩
    · cases ht : stod t with
      | val x => exact .inl ⟨x :: xs, .cons ht h⟩
      | invalid => exact .inr ⟨t, by simp, by simp [ht]⟩
      | range => exact .inr ⟨t, by simp, by simp [ht]⟩
    · exact .inr ⟨t', by simp [h1], h2⟩

theorem parses_length {stod : Text → Stod α} {toks : List Text} {xs : List α} (h : Parses stod toks xs) :
    xs.length = toks.length := h.length_eq.symm

theorem loadTokens_skip (stod : Text → Stod α) (row length : Int) (s : Nat) :
    ∀ (col : Nat) (toks : List Text) (d : List α), col ≤ s →
      loadTokens stod row length s col toks d =
        loadTokens stod row length s s (toks.drop (s - col)) d
  | col, [], d, _ => by simp [loadTokens]
  | col, t :: toks, d, h => by
    by_cases hc : col = s
    · subst hc
      simp
    · have e : s - col = (s - (col + 1)) + 1 := by omega
      rw [e, List.drop_succ_cons, ← loadTokens_skip stod row length s (col + 1) toks d (by omega)]
      rw [loadTokens, if_neg (by omega)]
      rfl

theorem loadTokens_ok (stod : Text → Stod α) (row length : Int) (s : Nat) :
    ∀ (toks : List Text) (xs : List α) (col : Nat) (pre slack : List α), Parses stod toks xs → s ≤ col →
      (toks ≠ [] → len pre = row * (length - s) + (col - s)) → toks.length ≤ slack.length →
      loadTokens stod row length s col toks (pre ++ slack) =
        .ok (pre ++ xs ++ slack.drop xs.length)
  | [], xs, col, pre, slack, h, _, _, _ => by
    cases h
    simp [loadTokens]
  | t :: toks, _, col, pre, slack, h, hs, hl, hn => by
    cases h with
    | @cons _ x _ xs hx h =>
      cases slack with
      | nil => simp at hn
      | cons y slack =>
        have hl := hl (by simp)
        rw [loadTokens, if_pos (by omega), hx]
        dsimp only
        rw [vset_ok _ (by rw [← hl]; exact len_nonneg _) (by rw [← hl]; simp; have := len_nonneg slack; omega), ← hl]
        have e1 : (len pre).toNat = pre.length := by simp [len]
        rw [e1, List.set_append_right _ _ (by omega)]
        simp only [Nat.sub_self, List.set_cons_zero, Res.bind_ok]
        have ih := loadTokens_ok stod row length s toks xs (col + 1) (pre ++ [x]) slack h (by omega)
          (fun _ => by simp [hl]; omega) (by simpa using hn)
        simp only [List.append_assoc, List.singleton_append] at ih
        rw [show ((col : Int) + 1) = ((col + 1 : Nat) : Int) by push_cast; ring, ih]
        simp

/-- A token that is no number is reported. -/
theorem loadTokens_throw (stod : Text → Stod α) (row length : Int) (s : Nat) :
    ∀ (toks : List Text) (col : Nat) (pre slack : List α), (∃ t ∈ toks, ∀ x, stod t ≠ .val x) →
      s ≤ col → len pre = row * (length - s) + (col - s) → toks.length ≤ slack.length →
      ∃ m : String, loadTokens stod row length s col toks (pre ++ slack) = .throw m
  | [], col, pre, slack, h, _, _, _ => by simp at h
  | t :: toks, col, pre, slack, h, hs, hl, hn => by
    rw [loadTokens, if_pos (by omega)]
    cases hx : stod t with
    | invalid => exact ⟨_, rfl⟩
    | range => exact ⟨_, rfl⟩
    | val x =>
      cases slack with
      | nil => simp at hn
      | cons y slack =>
        dsimp only
        rw [vset_ok _ (by rw [← hl]; exact len_nonneg _) (by rw [← hl]; simp; have := len_nonneg slack; omega), ← hl]
        have e1 : (len pre).toNat = pre.length := by simp [len]
        rw [e1, List.set_append_right _ _ (by omega)]
        simp only [Nat.sub_self, List.set_cons_zero, Res.bind_ok]
        have ih := loadTokens_throw stod row length s toks (col + 1) (pre ++ [x]) slack (by
            obtain ⟨t', h1, h2⟩ := h
            rcases List.mem_cons.mp h1 with rfl | h1
            · exact absurd hx (h2 x)
            · exact ⟨t', h1, h2⟩) (by omega)
          (by simp [hl]; omega) (by simpa using hn)
        simp only [List.append_assoc, List.singleton_append] at ih
        rw [show ((col : Int) + 1) = ((col + 1 : Nat) : Int) by push_cast; ring]
        exact ih

/-- What one line must look like: `c` tokens, those from column `s` on being the numbers `xs`. -/
def RowHas (stod : Text → Stod α) (seps : Text) (c s : Nat) (line : Text) (xs : List α) : Prop :=
  (tokenize seps line).length = c ∧ Parses stod ((tokenize seps line).drop s) xs

theorem rowHas_length {stod : Text → Stod α} {seps : Text} {c s : Nat} {line : Text} {xs : List α}
    (h : RowHas stod seps c s line xs) : xs.length = c - s := by
  rw [parses_length h.2]
  simp [h.1]

theorem loadLine_ok {stod : Text → Stod α} {seps : Text} {c s : Nat} {line : Text} {xs : List α}
    (h : RowHas stod seps c s line xs) (row : Nat) (pre slack : List α) (hp : pre.length = row * (c - s))
    (hs : c - s ≤ slack.length) :
    loadTokens stod row c s 0 (tokenize seps line) (pre ++ slack) =
      .ok (pre ++ xs ++ slack.drop (c - s)) := by
  have := loadTokens_skip stod row c s 0 (tokenize seps line) (pre ++ slack) (by omega)
  simp only [Nat.cast_zero, Nat.sub_zero] at this
  rw [this, loadTokens_ok stod row c s _ xs s pre slack h.2 (le_refl _) ?_ (by simp [h.1]; omega), rowHas_length h]
  intro hne
  have : s < c := by
    by_contra hcs
    apply hne
    apply List.drop_of_length_le
    rw [h.1]
    omega
  simp only [len, hp]
  push_cast [Nat.cast_sub this.le]
  ring

theorem loadLine_throw {stod : Text → Stod α} {seps : Text} {c s : Nat} {line : Text}
    (hc : (tokenize seps line).length = c) (h : ¬ ∃ xs, RowHas stod seps c s line xs) (row : Nat)
    (pre slack : List α) (hp : pre.length = row * (c - s))
    (hs : c - s ≤ slack.length) :
    ∃ m : String, loadTokens stod row c s 0 (tokenize seps line) (pre ++ slack) = .throw m := by
  have := loadTokens_skip stod row c s 0 (tokenize seps line) (pre ++ slack) (by omega)
  simp only [Nat.cast_zero, Nat.sub_zero] at this
  rw [this]
  have hbad : ∃ t ∈ (tokenize seps line).drop s, ∀ x, stod t ≠ .val x := by
    rcases parses_or_not stod ((tokenize seps line).drop s) with ⟨xs, h'⟩ | h'
    · exact absurd ⟨xs, hc, h'⟩ h
    · exact h'
  have hsc : s < c := by
    by_contra hcs
    obtain ⟨t, ht, _⟩ := hbad
    rw [List.drop_of_length_le (by omega)] at ht
    simp at ht
  refine loadTokens_throw stod row c s _ s pre slack hbad (le_refl _) ?_ (by simp [hc]; omega)
  simp only [len, hp]
  push_cast [Nat.cast_sub hsc.le]
  ring

/-- The rows after the first. -/
theorem loadRows_ok (stod : Text → Stod α) (seps : Text) (maxRow : Int) (c s : Nat) :
    ∀ (lines : List Text) (R : List (List α)) (row : Nat) (pre slack : List α),
      List.Forall₂ (RowHas stod seps c s) lines R → 0 < row → pre.length = row * (c - s) →
      lines.length * (c - s) ≤ slack.length →
      ∃ slack', loadRows stod seps maxRow s row lines c (some (pre ++ slack)) =
        .ok ((c : Int), some (pre ++ R.flatten ++ slack')) ∧ slack'.length + lines.length * (c - s) = slack.length
  | [], R, row, pre, slack, h, _, _, _ => by
    cases h
    exact ⟨slack, by simp [loadRows]⟩
  | line :: lines, _, row, pre, slack, h, hr, hp, hs => by
    cases h with
    | @cons _ xs _ R hx h =>
      have e : (line :: lines).length * (c - s) = lines.length * (c - s) + (c - s) := by simp; ring
      rw [e] at hs ⊢
      have hlen : len (tokenize seps line) = (c : Int) := by simp [len, hx.1]
      have hrow : (row : Int) ≠ 0 := by omega
      simp only [loadRows, hrow, if_false, hlen, ne_eq, not_true_eq_false, Res.pure_eq, Res.bind_ok]
      rw [loadLine_ok hx row pre slack hp (by omega), Res.bind_ok]
      obtain ⟨slack', h1, h2⟩ := loadRows_ok stod seps maxRow c s lines R (row + 1) (pre ++ xs)
        (slack.drop (c - s)) h (by omega) (by
          rw [List.length_append, hp, rowHas_length hx]; ring) (by rw [List.length_drop]; omega)
      refine ⟨slack', ?_, ?_⟩
      · rw [show ((row : Int) + 1) = ((row + 1 : Nat) : Int) by push_cast; ring, h1]
        simp
      · rw [List.length_drop] at h2
        omega

theorem loadRows_throw (stod : Text → Stod α) (seps : Text) (maxRow : Int) (c s : Nat) :
    ∀ (lines : List Text) (row : Nat) (pre slack : List α),
      (¬ ∃ R, List.Forall₂ (RowHas stod seps c s) lines R) → 0 < row → pre.length = row * (c - s) →
      lines.length * (c - s) ≤ slack.length →
      ∃ m : String, loadRows stod seps maxRow s row lines c (some (pre ++ slack)) = .throw m
  | [], row, pre, slack, h, _, _, _ => absurd ⟨[], .nil⟩ h
  | line :: lines, row, pre, slack, h, hr, hp, hs => by
    have e : (line :: lines).length * (c - s) = lines.length * (c - s) + (c - s) := by simp; ring
    rw [e] at hs
    have hrow : (row : Int) ≠ 0 := by omega
    by_cases hc : (tokenize seps line).length = c
    · have hlen : len (tokenize seps line) = (c : Int) := by simp [len, hc]
      simp only [loadRows, hrow, if_false, hlen, ne_eq, not_true_eq_false, Res.pure_eq, Res.bind_ok]
      by_cases hx : ∃ xs, RowHas stod seps c s line xs
      · obtain ⟨xs, hx⟩ := hx
        rw [loadLine_ok hx row pre slack hp (by omega), Res.bind_ok]
        have := loadRows_throw stod seps maxRow c s lines (row + 1) (pre ++ xs)
          (slack.drop (c - s)) (fun ⟨R, hR⟩ => h ⟨xs :: R, .cons hx hR⟩) (by omega) (by
            rw [List.length_append, hp, rowHas_length hx]; ring) (by rw [List.length_drop]; omega)
        rwa [show ((row : Int) + 1) = ((row + 1 : Nat) : Int) by push_cast; ring]
      · obtain ⟨m, hm⟩ := loadLine_throw hc hx row pre slack hp (by omega)
        exact ⟨m, by rw [hm]; rfl⟩
    · have hlen : (c : Int) ≠ len (tokenize seps line) := by simp only [len]; omega
      simp only [loadRows, hrow, if_false, if_pos hlen]
      exact ⟨_, rfl⟩

/-- The whole row loop on good rows. -/
theorem loadRows_spec (stod : Text → Stod α) (seps : Text) (c s : Nat) (lines : List Text) (R : List (List α))
    (h : List.Forall₂ (RowHas stod seps c s) lines R) (hne : lines ≠ []) :
    ∃ slack, loadRows stod seps lines.length s 0 lines (-1) none =
      .ok ((c : Int), some (R.flatten ++ slack)) ∧ R.flatten.length + slack.length = lines.length * c := by
  cases h with
  | nil => exact absurd rfl hne
  | @cons line xs lines R hx h =>
    have hlen : len (tokenize seps line) = (c : Int) := by simp [len, hx.1]
    have hcs : (lines.length + 1) * (c - s) ≤ (lines.length + 1) * c := Nat.mul_le_mul_left _ (by omega)
    have e1 : (lines.length + 1) * (c - s) = lines.length * (c - s) + (c - s) := by ring
    have e2 : (((line :: lines).length : Int) * (c : Int)).toNat = (lines.length + 1) * c := by
      rw [← Int.natCast_mul, Int.toNat_natCast]
      simp
    simp only [loadRows, if_true, hlen, Res.pure_eq, Res.bind_ok, e2]
    have := loadLine_ok hx 0 [] (List.replicate ((lines.length + 1) * c) DataT.zero) (by simp) (by simp; omega)
    simp only [Nat.cast_zero, List.nil_append] at this
    rw [this, Res.bind_ok]
    obtain ⟨slack', h1, h2⟩ := loadRows_ok stod seps ((line :: lines).length) c s lines R 1 xs
      ((List.replicate ((lines.length + 1) * c) DataT.zero).drop (c - s)) h (by omega) (by
        rw [rowHas_length hx]; ring) (by simp; omega)
    refine ⟨slack', ?_, ?_⟩
    · rw [show ((0 : Int) + 1) = ((1 : Nat) : Int) by norm_num, h1]
      simp
    · have h3 : R.flatten.length = R.length * (c - s) := by
        apply flatten_length
        intro r hr
        obtain ⟨i, hi, rfl⟩ := List.getElem_of_mem hr
        have := List.Forall₂.get h (i := i) (by rw [h.length_eq]; exact hi) hi
        simpa using rowHas_length this
      have h4 : R.length = lines.length := h.length_eq.symm
      simp only [List.length_drop, List.length_replicate] at h2
      simp only [List.flatten_cons, List.length_append, List.length_cons, rowHas_length hx, h3, h4]
      omega

/-- … and on bad ones. -/
theorem loadRows_bad (stod : Text → Stod α) (seps : Text) (s : Nat) (lines : List Text) (hne : lines ≠ [])
    (h : ¬ ∃ c R, List.Forall₂ (RowHas stod seps c s) lines R) :
    ∃ m : String, loadRows stod seps lines.length s 0 lines (-1) none = .throw m := by
  cases lines with
  | nil => exact absurd rfl hne
  | cons line lines =>
    obtain ⟨c, hc⟩ : ∃ c, (tokenize seps line).length = c := ⟨_, rfl⟩
    have h : ¬ ∃ R, List.Forall₂ (RowHas stod seps c s) (line :: lines) R := fun ⟨R, hR⟩ => h ⟨c, R, hR⟩
    have hlen : len (tokenize seps line) = (c : Int) := by simp [len, hc]
    have hcs : (lines.length + 1) * (c - s) ≤ (lines.length + 1) * c := Nat.mul_le_mul_left _ (by omega)
    have e1 : (lines.length + 1) * (c - s) = lines.length * (c - s) + (c - s) := by ring
    have e2 : (((line :: lines).length : Int) * (c : Int)).toNat = (lines.length + 1) * c := by
      rw [← Int.natCast_mul, Int.toNat_natCast]
      simp
    simp only [loadRows, if_true, hlen, Res.pure_eq, Res.bind_ok, e2]
    by_cases hx : ∃ xs, RowHas stod seps c s line xs
    · obtain ⟨xs, hx⟩ := hx
      have := loadLine_ok hx 0 [] (List.replicate ((lines.length + 1) * c) DataT.zero) (by simp) (by simp; omega)
      simp only [Nat.cast_zero, List.nil_append] at this
      rw [this, Res.bind_ok]
      have := loadRows_throw stod seps ((line :: lines).length) c s lines 1 xs
        ((List.replicate ((lines.length + 1) * c) DataT.zero).drop (c - s))
        (fun ⟨R, hR⟩ => h ⟨xs :: R, .cons hx hR⟩) (by omega) (by
          rw [rowHas_length hx]; ring) (by simp; omega)
      rwa [show ((0 : Int) + 1) = ((1 : Nat) : Int) by norm_num]
    · have := loadLine_throw hc hx 0 [] (List.replicate ((lines.length + 1) * c) DataT.zero) (by simp) (by simp; omega)
      simp only [Nat.cast_zero, List.nil_append] at this
      obtain ⟨m, hm⟩ := this
      exact ⟨m, by rw [hm]; rfl⟩

theorem rowLimit_length (maxNumRow : Int) (lines : List Text) :
    rowLimit maxNumRow (len lines) = ((lines.take (rowLimit maxNumRow (len lines)).toNat).length : Int) := by
  simp only [rowLimit, len, List.length_take]
  split <;> omega

end Onex
