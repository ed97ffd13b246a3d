import Verif.Spec.Table
import Verif.Proofs.Basic

/-!
# Tables in a flat buffer; lines and tokens
-/

namespace Onex
open Spec

section table
variable {α : Type}

theorem flatten_length {L : Nat} : ∀ {R : List (List α)}, (∀ r ∈ R, r.length = L) →
    R.flatten.length = R.length * L
  | [], _ => by simp
  | r :: R, h => by
    have h1 := h r (by simp)
    have h2 := flatten_length (R := R) (fun r hr => h r (by simp [hr]))
    simp [h1, h2]
    ring

theorem flatten_window {L : Nat} : ∀ {R : List (List α)} (_ : ∀ r ∈ R, r.length = L) (slack : List α)
    (i : Nat) (hi : i < R.length) (s k : Nat), s + k ≤ L →
    ((R.flatten ++ slack).drop (i * L + s)).take k = (R[i].drop s).take k
  | [], _, _, i, hi, _, _, _ => by simp at hi
  | r :: R, h, slack, 0, _, s, k, hk => by
    have h1 := h r (by simp)
    simp only [Nat.zero_mul, Nat.zero_add, List.flatten_cons, List.append_assoc, List.getElem_cons_zero]
    rw [List.drop_append_of_le_length (by omega), List.take_append_of_le_length (by simp; omega)]
  | r :: R, h, slack, i + 1, hi, s, k, hk => by
    have h1 := h r (by simp)
    have h2 := flatten_window (R := R) (fun r hr => h r (by simp [hr])) slack i (by simpa using hi) s k hk
    simp only [List.flatten_cons, List.append_assoc, List.getElem_cons_succ]
    rw [← h2]
    have e : (i + 1) * L + s = r.length + (i * L + s) := by rw [h1]; ring
    rw [e, List.drop_append, List.drop_of_length_le (by omega)]
    simp

theorem flatten_get {L : Nat} : ∀ {R : List (List α)} (_ : ∀ r ∈ R, r.length = L) (slack : List α)
    (i : Nat) (hi : i < R.length) (j : Nat), j < L →
    (R.flatten ++ slack)[i * L + j]? = R[i][j]?
  | [], _, _, i, hi, _, _ => by simp at hi
  | r :: R, h, slack, 0, _, j, hj => by
    have h1 := h r (by simp)
    simp only [Nat.zero_mul, Nat.zero_add, List.flatten_cons, List.append_assoc, List.getElem_cons_zero]
    rw [List.getElem?_append_left (by omega)]
  | r :: R, h, slack, i + 1, hi, j, hj => by
    have h1 := h r (by simp)
    have h2 := flatten_get (R := R) (fun r hr => h r (by simp [hr])) slack i (by simpa using hi) j hj
    simp only [List.flatten_cons, List.append_assoc, List.getElem_cons_succ]
    rw [← h2]
    have e : (i + 1) * L + j = r.length + (i * L + j) := by rw [h1]; ring
    rw [e, List.getElem?_append_right (by omega)]
    congr 1
    omega

theorem flatten_set {L : Nat} : ∀ {R : List (List α)} (_ : ∀ r ∈ R, r.length = L) (slack : List α)
    (i : Nat) (hi : i < R.length) (j : Nat) (v : α), j < L →
    (R.flatten ++ slack).set (i * L + j) v = (R.set i (R[i].set j v)).flatten ++ slack
  | [], _, _, i, hi, _, _, _ => by simp at hi
  | r :: R, h, slack, 0, _, j, v, hj => by
    have h1 := h r (by simp)
    simp only [Nat.zero_mul, Nat.zero_add, List.flatten_cons, List.append_assoc,
      List.getElem_cons_zero, List.set_cons_zero]
    rw [List.set_append_left _ _ (by omega)]
  | r :: R, h, slack, i + 1, hi, j, v, hj => by
    have h1 := h r (by simp)
    have h2 := flatten_set (R := R) (fun r hr => h r (by simp [hr])) slack i (by simpa using hi) j v hj
    simp only [List.flatten_cons, List.append_assoc, List.getElem_cons_succ, List.set_cons_succ]
    rw [← h2]
    have e : (i + 1) * L + j = r.length + (i * L + j) := by rw [h1]; ring
    rw [e, List.set_append_right _ _ (by omega)]
    congr 2
    omega

/-- Every sufficiently long buffer is a table. -/
theorem exists_table (L : Nat) : ∀ (n : Nat) (b : List α), n * L ≤ b.length →
    ∃ R : List (List α), R.length = n ∧ (∀ r ∈ R, r.length = L) ∧ ∃ slack, b = R.flatten ++ slack
  | 0, b, _ => ⟨[], rfl, by simp, b, by simp⟩
  | n + 1, b, h => by
    have h' : (n + 1) * L = n * L + L := by ring
    obtain ⟨R, h1, h2, slack, h3⟩ := exists_table L n (b.drop L) (by simp; omega)
    refine ⟨b.take L :: R, by simp [h1], ?_, slack, ?_⟩
    · intro r hr
      rcases List.mem_cons.mp hr with rfl | hr
      · simp; omega
      · exact h2 r hr
    · simp [← h3]

end table

/-! ## Lines and tokens -/

theorem getLines_newline (l t : Text) (h : '\n' ∉ l) : getLines (l ++ '\n' :: t) = l :: getLines t := by
  induction l with
  | nil => simp [getLines]
  | cons c l ih =>
    have hc : c ≠ '\n' := fun e => h (by simp [e])
    have := ih (fun e => h (by simp [e]))
    simp [getLines, hc, this]

theorem getLines_last (l : Text) (hne : l ≠ []) (h : '\n' ∉ l) : getLines l = [l] := by
  induction l with
  | nil => exact absurd rfl hne
  | cons c l ih =>
    have hc : c ≠ '\n' := fun e => h (by simp [e])
    by_cases hl : l = []
    · subst hl
      simp [getLines, hc]
    · simp [getLines, hc, ih hl (fun e => h (by simp [e]))]

theorem getLines_of_fileHas {t : Text} {ls : List Text} (h : FileHas t ls) : getLines t = ls := by
  induction h with
  | nil => rfl
  | last l h hn => exact getLines_last l h hn
  | cons l t ls hn _ ih => rw [getLines_newline l t hn, ih]

/-- Every text consists of the lines the loader sees. -/
theorem fileHas_getLines : ∀ t : Text, FileHas t (getLines t)
  | [] => .nil
  | c :: t => by
    have ih := fileHas_getLines t
    by_cases hc : c = '\n'
    · subst hc
      simpa [getLines] using FileHas.cons [] t _ (by simp) ih
    · simp only [getLines, hc, if_false]
      generalize hg : getLines t = ls at ih
      cases ih with
      | nil => simpa using FileHas.last [c] (by simp) (by simpa using Ne.symm hc)
      | last l h hn =>
        exact FileHas.last (c :: t) (by simp) (by simp [hn, Ne.symm hc])
      | cons l t ls hn h =>
        exact FileHas.cons (c :: l) t ls (by simp [hn, Ne.symm hc]) h

theorem takeWhile_sat {α : Type} {p : α → Bool} {l : List α} {x : α} (h : x ∈ l.takeWhile p) :
    p x = true := by
  induction l with
  | nil => simp at h
  | cons a l ih =>
    rw [List.takeWhile_cons] at h
    split at h
    · rcases List.mem_cons.mp h with rfl | h
      · assumption
      · exact ih h
    · simp at h

theorem splitOnP_sep {p : Char → Bool} {c : Char} (h : p c = true) (t : Text) :
    (c :: t).splitOnP p = [] :: t.splitOnP p := by
  simp [List.splitOnP_cons_eq_if_modifyHead, h]

theorem tokenize_pad (seps pad t : Text) (h : ∀ c ∈ pad, c ∈ seps) :
    tokenize seps (pad ++ t) = tokenize seps t := by
  induction pad with
  | nil => rfl
  | cons c pad ih =>
    have hc : seps.contains c = true := by simpa using h c (by simp)
    have := ih (fun c hc => h c (by simp [hc]))
    unfold tokenize at this ⊢
    rw [List.cons_append, splitOnP_sep (p := fun c => seps.contains c) hc]
    rw [← this]
    rfl

theorem splitOnP_ne_nil' (p : Char → Bool) (t : Text) : t.splitOnP p ≠ [] := by
  cases t with
  | nil => simp
  | cons c t =>
    rw [List.splitOnP_cons_eq_if_modifyHead]
    split
    · simp
    · have := splitOnP_ne_nil' p t
      cases hh : t.splitOnP p with
      | nil => exact absurd hh this
      | cons a l => simp

theorem splitOnP_tok (p : Char → Bool) (tok rest : Text) (h : ∀ c ∈ tok, p c = false) :
    (tok ++ rest).splitOnP p = (rest.splitOnP p).modifyHead (tok ++ ·) := by
  induction tok with
  | nil =>
    have := splitOnP_ne_nil' p rest
    cases hh : rest.splitOnP p with
    | nil => exact absurd hh this
    | cons a l => simp [hh]
  | cons c tok ih =>
    have := ih (fun c hc => h c (by simp [hc]))
    rw [List.cons_append, List.splitOnP_cons_eq_if_modifyHead, this]
    have := splitOnP_ne_nil' p rest
    cases hh : rest.splitOnP p with
    | nil => exact absurd hh this
    | cons a l => simp [h c (by simp)]

theorem tokenize_tok (seps tok rest : Text) (hne : tok ≠ []) (ht : ∀ c ∈ tok, c ∉ seps)
    (hr : rest = [] ∨ ∃ c r, rest = c :: r ∧ c ∈ seps) :
    tokenize seps (tok ++ rest) = tok :: tokenize seps rest := by
  unfold tokenize
  rw [splitOnP_tok _ _ _ (fun c hc => by simpa using ht c hc)]
  rcases hr with rfl | ⟨c, r, rfl, hc⟩
  · cases tok <;> simp_all
  · rw [splitOnP_sep (by simpa using hc)]
    cases tok <;> simp_all

theorem tokenize_of_lineHas {seps line : Text} {toks : List Text} (h : LineHas seps line toks) :
    tokenize seps line = toks := by
  induction h with
  | nil pad h =>
    have := tokenize_pad seps pad [] h
    rw [List.append_nil] at this
    rw [this]
    simp [tokenize]
  | cons pad tok rest toks hp hne ht hr _ ih =>
    rw [List.append_assoc, tokenize_pad _ _ _ hp, tokenize_tok _ _ _ hne ht hr, ih]

/-- Every line consists of the tokens the loader sees. -/
theorem lineHas_tokenize (seps : Text) : ∀ (n : Nat) (line : Text), line.length ≤ n →
    LineHas seps line (tokenize seps line)
  | 0, line, h => by
    have : line = [] := List.length_eq_zero_iff.mp (by omega)
    subst this
    exact LineHas.nil [] (by simp)
  | n + 1, line, h => by
    -- split off the leading separators and the first token
    have e1 : line = line.takeWhile (seps.contains ·) ++ line.dropWhile (seps.contains ·) := by simp
    generalize hp : line.takeWhile (seps.contains ·) = pad at e1
    generalize hr : line.dropWhile (seps.contains ·) = r at e1
    have hpad : ∀ c ∈ pad, c ∈ seps := by
      intro c hc
      rw [← hp] at hc
      simpa using takeWhile_sat hc
    cases r with
    | nil =>
      rw [e1, List.append_nil]
      have := tokenize_pad seps pad [] hpad
      rw [List.append_nil] at this
      rw [this]
      exact LineHas.nil pad hpad
    | cons c r =>
      have hc : c ∉ seps := by
        have := List.head_dropWhile_not (p := (seps.contains ·)) (l := line) (by rw [hr]; simp)
        simp only [hr, List.head_cons] at this
        simpa using this
      have e2 : c :: r = (c :: r.takeWhile (fun c => !seps.contains c)) ++
          r.dropWhile (fun c => !seps.contains c) := by simp
      generalize hq : r.takeWhile (fun c => !seps.contains c) = q at e2
      generalize hs : r.dropWhile (fun c => !seps.contains c) = s at e2
      have hq' : ∀ d ∈ c :: q, d ∉ seps := by
        intro d hd
        rcases List.mem_cons.mp hd with rfl | hd
        · exact hc
        · rw [← hq] at hd
          simpa using takeWhile_sat hd
      have hs' : s = [] ∨ ∃ c r, s = c :: r ∧ c ∈ seps := by
        cases s with
        | nil => exact .inl rfl
        | cons d s =>
          right
          refine ⟨d, s, rfl, ?_⟩
          have := List.head_dropWhile_not (p := fun c => !seps.contains c) (l := r) (by rw [hs]; simp)
          simp only [hs, List.head_cons] at this
          simpa using this
      have hlen : s.length ≤ n := by
        rw [e1, e2] at h
        simp at h
        omega
      have ih := lineHas_tokenize seps n s hlen
      rw [e1, e2, ← List.append_assoc, List.append_assoc pad, tokenize_pad _ _ _ hpad,
        tokenize_tok _ _ _ (by simp) hq' hs', ← List.append_assoc]
      exact LineHas.cons pad (c :: q) s _ hpad (by simp) hq' hs' ih

end Onex
