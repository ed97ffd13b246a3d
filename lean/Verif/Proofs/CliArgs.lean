import Verif.Proofs.Cli
import Verif.Proofs.Table
import Verif.Proofs.GroupFile
import Mathlib.Data.List.TakeWhile

/-!
# Lines, argument words and commands
-/

namespace Onex

open Spec

set_option linter.unusedSectionVars false

variable {α : Type} [DataT α]

/-! ## Reading integers -/

theorem splitInt_cases (t : Text) :
    (∃ u, t = '-' :: u ∧ splitInt t = (true, u.takeWhile Char.isDigit, u.dropWhile Char.isDigit)) ∨
    (∃ u, t = '+' :: u ∧ splitInt t = (false, u.takeWhile Char.isDigit, u.dropWhile Char.isDigit)) ∨
    splitInt t = (false, t.takeWhile Char.isDigit, t.dropWhile Char.isDigit) := by
  unfold splitInt
  split
  rename_i b u h
  split at h
  · rename_i v
    simp only [Prod.mk.injEq] at h
    obtain ⟨rfl, rfl⟩ := h
    exact Or.inl ⟨v, rfl, rfl⟩
  · rename_i v
    simp only [Prod.mk.injEq] at h
    obtain ⟨rfl, rfl⟩ := h
    exact Or.inr (Or.inl ⟨v, rfl, rfl⟩)
  · simp only [Prod.mk.injEq] at h
    obtain ⟨rfl, rfl⟩ := h
    exact Or.inr (Or.inr rfl)

theorem reads_of_stoi {t : Text} {z : Int} (h : stoi t = .ok z) : ReadsInt t z := by
  unfold stoi at h
  have hsp : ∀ c ∈ t.takeWhile isSpace, c ∈ [' ', '\n', '\t', '\r', '\x0b', '\x0c'] := by
    intro c hc
    have := List.mem_takeWhile_imp hc
    simpa [isSpace, or_assoc] using this
  have main : ∀ (sgn u : Text), t.dropWhile isSpace = sgn ++ u → (sgn = [] ∨ sgn = ['-'] ∨ sgn = ['+']) →
      u.takeWhile Char.isDigit ≠ [] →
      inIntRange ((if sgn = ['-'] then -1 else 1) * (digitsVal (u.takeWhile Char.isDigit) : Int)) = true →
      z = (if sgn = ['-'] then -1 else 1) * (digitsVal (u.takeWhile Char.isDigit) : Int) → ReadsInt t z := by
    intro sgn u e hs hne hr hz
    refine ⟨t.takeWhile isSpace, sgn, u.takeWhile Char.isDigit, u.dropWhile Char.isDigit, ?_, hsp, hs, hne, ?_, ?_, ?_, ?_⟩
    · rw [List.append_assoc, List.takeWhile_append_dropWhile, List.append_assoc, ← e, List.takeWhile_append_dropWhile]
    · intro c hc
      exact List.mem_takeWhile_imp hc
    · intro c hc
      have := List.head?_dropWhile_not Char.isDigit u
      rw [Option.mem_def] at hc
      rw [hc] at this
      simpa using this
    · rw [hz, digitsVal_eq]
    · rw [← hz] at hr
      simpa [inIntRange] using hr
  have fin : ∀ (b : Bool) (sgn u : Text), t.dropWhile isSpace = sgn ++ u → (sgn = [] ∨ sgn = ['-'] ∨ sgn = ['+']) →
      (b = true ↔ sgn = ['-']) →
      splitInt (t.dropWhile isSpace) = (b, u.takeWhile Char.isDigit, u.dropWhile Char.isDigit) → ReadsInt t z := by
    intro b sgn u e hs hb he
    rw [he] at h
    dsimp only at h
    by_cases hne : u.takeWhile Char.isDigit = []
    · rw [if_pos hne] at h
      simp at h
    · rw [if_neg hne] at h
      by_cases hr : inIntRange (if b = true then -(digitsVal (u.takeWhile Char.isDigit) : Int)
          else (digitsVal (u.takeWhile Char.isDigit) : Int)) = true
      · rw [if_pos hr] at h
        simp only [Res.ok.injEq] at h
        refine main sgn u e hs hne ?_ ?_
        · by_cases hsg : sgn = ['-']
          · rw [if_pos (hb.mpr hsg)] at hr
            rw [if_pos hsg]
            simpa using hr
          · rw [if_neg (fun h => hsg (hb.mp h))] at hr
            rw [if_neg hsg]
            simpa using hr
        · by_cases hsg : sgn = ['-']
          · rw [if_pos (hb.mpr hsg)] at h
            rw [if_pos hsg]
            simpa using h.symm
          · rw [if_neg (fun h => hsg (hb.mp h))] at h
            rw [if_neg hsg]
            simpa using h.symm
      · rw [if_neg hr] at h
        simp at h
  rcases splitInt_cases (t.dropWhile isSpace) with ⟨u, e1, e2⟩ | ⟨u, e1, e2⟩ | e2
  · exact fin true ['-'] u e1 (by simp) (by simp) e2
  · exact fin false ['+'] u e1 (by simp) (by simp) e2
  · exact fin false [] _ rfl (by simp) (by simp) e2

theorem arg_nat {args : List Text} {k : Nat} {w : Text} (h : args[k]? = some w) : arg args k = .ok w := by
  unfold arg vget
  rw [if_pos (by omega), Int.toNat_natCast, h]

/-! ## Lines -/

theorem lineHas_ne {seps line : Text} {toks : List Text} (h : LineHas seps line toks) : ∀ w ∈ toks, w ≠ [] := by
  induction h with
  | nil => simp
  | cons pad tok rest toks hp hne ht hr h ih =>
    intro w hw
    rcases List.mem_cons.mp hw with rfl | hw
    · exact hne
    · exact ih w hw

theorem lineHas_self (line : Text) : LineHas [' '] line (tokenize [' '] line) :=
  lineHas_tokenize _ _ line le_rfl

theorem processLine_words {line : Text} {name : Text} {rest : List Text} (env : Env α) (fs : FS) (s : Session α)
    (h : LineHas [' '] line (name :: rest)) : processLine env fs s line =
      if name.take 2 = ['/', '/'] then (.ok false, s)
      else if name = "quit".toList ∨ name = "exit".toList then (.ok true, s)
      else if name = "help".toList then (.ok false, s)
      else ((doCommand env fs s name (name :: rest)).1.map fun _ => false, (doCommand env fs s name (name :: rest)).2) := by
  unfold processLine
  rw [tokenize_of_lineHas h]

/-- Everything a line can do. -/
theorem processLine_cases (env : Env α) (fs : FS) (s : Session α) (line : Text) (args : List Text)
    (h : LineHas [' '] line args) :
    processLine env fs s line = (.ok false, s) ∨
    (processLine env fs s line = (.ok true, s) ∧ (args.head? = some "quit".toList ∨ args.head? = some "exit".toList)) ∨
    ∃ name, args.head? = some name ∧ ∃ R, Amounts env s name args R ∧ processLine env fs s line = (R.1.map fun _ => false, R.2) := by
  rcases args with _ | ⟨name, rest⟩
  · left
    unfold processLine
    rw [tokenize_of_lineHas h]
  · rw [processLine_words env fs s h]
    split
    · exact Or.inl rfl
    · split
      · rename_i hq
        right; left
        refine ⟨rfl, ?_⟩
        rcases hq with rfl | rfl <;> simp
      · split
        · exact Or.inl rfl
        · right; right
          exact ⟨name, rfl, _, doCommand_cases env fs s name (name :: rest) (lineHas_ne h) rfl, rfl⟩

theorem step_quiet {line : Text} {name : Text} {rest : List Text} (env : Env α) (fs : FS) (s : Session α)
    (h : LineHas [' '] line (name :: rest)) (hq1 : name ≠ "quit".toList) (hq2 : name ≠ "exit".toList)
    (hd : doCommand env fs s name (name :: rest) = (.ok (), s) ∨
      ∃ e, e ≠ Exc.badAlloc ∧ doCommand env fs s name (name :: rest) = (.throw e, s)) :
    mainStep env fs s line = .continues s := by
  have hq : ¬ (name = "quit".toList ∨ name = "exit".toList) := by
    rintro (h | h)
    · exact hq1 h
    · exact hq2 h
  have : processLine env fs s line = (.ok false, s) ∨ ∃ e, e ≠ Exc.badAlloc ∧ processLine env fs s line = (.throw e, s) := by
    rw [processLine_words env fs s h, if_neg hq]
    by_cases h1 : name.take 2 = ['/', '/']
    · rw [if_pos h1]
      exact Or.inl rfl
    rw [if_neg h1]
    by_cases h2 : name = "help".toList
    · rw [if_pos h2]
      exact Or.inl rfl
    rw [if_neg h2]
    rcases hd with hd | ⟨e, he, hd⟩
    · rw [hd]
      exact Or.inl rfl
    · rw [hd]
      exact Or.inr ⟨e, he, rfl⟩
  unfold mainStep
  rcases this with e | ⟨x, hx, e⟩
  · rw [e]
  · rw [e]
    cases x
    case badAlloc => exact absurd rfl hx
    all_goals rfl

theorem badArgs_of {args : List Text} {lo hi : Nat} (h : args.length < lo ∨ hi < args.length) : badArgs args lo hi = true := by
  unfold badArgs len
  simp only [Bool.or_eq_true, decide_eq_true_eq]
  omega

/-- An argument word that is not a number makes the evaluation of the arguments fail. -/
def Fails {β : Type} (r : Res β) : Prop := ∃ e, e ≠ Exc.badAlloc ∧ r = .throw e

theorem Fails.left {β γ : Type} {r : Res β} {f : β → Res γ} (h : Fails r) : Fails (r >>= f) := by
  obtain ⟨e, he, rfl⟩ := h
  exact ⟨e, he, rfl⟩

theorem Fails.right {β γ : Type} {r : Res β} {f : β → Res γ} (ht : Tame r) (hd : Defined r)
    (h : ∀ b, r = .ok b → Fails (f b)) : Fails (r >>= f) := by
  rcases r with b | e | w
  · exact h b rfl
  · exact ⟨e, ht e rfl, rfl⟩
  · exact absurd rfl (hd w)

theorem fails_stoi {t : Text} (h : ∀ z, ¬ ReadsInt t z) : Fails (stoi t) := by
  rcases hs : stoi t with z | e | w
  · exact absurd (reads_of_stoi hs) (h z)
  · exact ⟨e, tame_stoi t e hs, rfl⟩
  · exact absurd hs (defined_stoi t w)

theorem tame_argStoi (args : List Text) (k : Int) : Tame (arg args k >>= stoi) := by
  tame

theorem defined_argStoi {args : List Text} {k : Int} (h0 : 0 ≤ k) (h1 : k < len args) : Defined (arg args k >>= stoi) := by
  defined

theorem fails_argStoi {args : List Text} {k : Nat} {w : Text} (h : args[k]? = some w) (hw : ∀ z, ¬ ReadsInt w z) :
    Fails (arg args k >>= stoi) := by
  rw [arg_nat h]
  exact fails_stoi hw

theorem args_words {args : List Text} {name : Text} (h : args.head? = some name) : ∃ rest, args = name :: rest := by
  rcases args with _ | ⟨a, rest⟩
  · simp at h
  · simp only [List.head?_cons, Option.some.injEq] at h
    exact ⟨rest, by rw [h]⟩

theorem key_nonNumeric (env : Env α) (s : Session α) {args : List Text} (lo hi : Int) (pre : Res (Call α))
    (h : ¬ badArgs args lo hi → Fails pre) :
    (if badArgs args lo hi then ((.ok (), s) : Eff (Session α) Unit) else s.callWith env pre) = (.ok (), s) ∨
    ∃ e, e ≠ Exc.badAlloc ∧ (if badArgs args lo hi then ((.ok (), s) : Eff (Session α) Unit) else s.callWith env pre) =
      (.throw e, s) := by
  by_cases hb : badArgs args lo hi
  · left
    rw [if_pos hb]
  · right
    rw [if_neg hb]
    obtain ⟨e, he, e2⟩ := h hb
    exact ⟨e, he, by rw [e2]; rfl⟩

theorem not_badArgs {args : List Text} {lo hi : Int} (h : ¬ badArgs args lo hi) : lo ≤ len args ∧ len args ≤ hi := by
  unfold badArgs at h
  simp only [Bool.or_eq_true, decide_eq_true_eq, not_or, not_lt, gt_iff_lt] at h
  exact h

theorem fails_at {args : List Text} {k : Int} {w b : Text} (h : arg args k = .ok w) (hw : ∀ z, ¬ ReadsInt w z)
    (hb : arg args k = .ok b) : Fails (stoi b) := by
  rw [h, Res.ok.injEq] at hb
  rw [← hb]
  exact fails_stoi hw

/-- One step of a proof that evaluating the arguments fails. -/
macro "fails_step " h:term:max hw:term:max : tactic => `(tactic| first
  | (exfalso; omega)
  | (with_reducible exact Fails.left (fails_at $h $hw (by assumption)))
  | (with_reducible refine Fails.right (by tame) (by defined; done) ?_; intro _ _)
  | split
  | dsimp only)

/-- The word is at the given place and not an integer. -/
structure BadAt (args : List Text) (k : Int) (w : Text) (lo hi : Int) : Prop where
  at_k : arg args k = .ok w
  lt : k < len args
  bad : ∀ z, ¬ ReadsInt w z
  lo_le : lo ≤ len args
  le_hi : len args ≤ hi

theorem fails_cmdLoad (fs : FS) {args : List Text} {w : Text} {k : Int} (hk : k = 2 ∨ k = 3) (h : BadAt args k w 2 5) :
    Fails (cmdLoad fs args : Res (Call α)) := by
  obtain ⟨h, hl, hw, hlo, hhi⟩ := h
  unfold cmdLoad
  rcases hk with rfl | rfl
  all_goals repeat' fails_step h hw

theorem fails_cmdSave (fs : FS) {args : List Text} {w : Text} {k : Int} (hk : k = 1) (h : BadAt args k w 3 4) :
    Fails (cmdSave fs args : Res (Call α)) := by
  obtain ⟨h, hl, hw, hlo, hhi⟩ := h
  unfold cmdSave
  subst hk
  repeat' fails_step h hw

theorem fails_cmdUnload {args : List Text} {w : Text} {k : Int} (hk : k = 1) (h : BadAt args k w 2 5) :
    Fails (cmdUnload args : Res (Call α)) := by
  obtain ⟨h, hl, hw, hlo, hhi⟩ := h
  unfold cmdUnload
  subst hk
  repeat' fails_step h hw

theorem fails_cmdGroup (env : Env α) {args : List Text} {w : Text} {k : Int} (hk : k = 1) (h : BadAt args k w 3 3) :
    Fails (cmdGroup env args : Res (Call α)) := by
  obtain ⟨h, hl, hw, hlo, hhi⟩ := h
  unfold cmdGroup
  subst hk
  repeat' fails_step h hw

theorem fails_cmdSaveGroup (fs : FS) {args : List Text} {w : Text} {k : Int} (hk : k = 1 ∨ k = 3) (h : BadAt args k w 3 4) :
    Fails (cmdSaveGroup fs args : Res (Call α)) := by
  obtain ⟨h, hl, hw, hlo, hhi⟩ := h
  unfold cmdSaveGroup
  rcases hk with rfl | rfl
  all_goals repeat' fails_step h hw

theorem fails_cmdLoadGroup (fs : FS) {args : List Text} {w : Text} {k : Int} (hk : k = 1) (h : BadAt args k w 3 3) :
    Fails (cmdLoadGroup fs args : Res (Call α)) := by
  obtain ⟨h, hl, hw, hlo, hhi⟩ := h
  unfold cmdLoadGroup
  subst hk
  repeat' fails_step h hw

theorem fails_cmdNormalize {args : List Text} {w : Text} {k : Int} (hk : k = 1) (h : BadAt args k w 2 2) :
    Fails (cmdNormalize args : Res (Call α)) := by
  obtain ⟨h, hl, hw, hlo, hhi⟩ := h
  unfold cmdNormalize
  subst hk
  repeat' fails_step h hw

theorem fails_cmdPAA {args : List Text} {w : Text} {k : Int} (hk : k = 1 ∨ k = 2) (h : BadAt args k w 3 3) :
    Fails (cmdPAA args : Res (Call α)) := by
  obtain ⟨h, hl, hw, hlo, hhi⟩ := h
  unfold cmdPAA
  rcases hk with rfl | rfl
  all_goals repeat' fails_step h hw

theorem fails_cmdMatch {args : List Text} {w : Text} {k : Int} (hk : k = 1 ∨ k = 2 ∨ k = 3 ∨ k = 4 ∨ k = 5) (h : BadAt args k w 4 6) :
    Fails (cmdMatch args : Res (Call α)) := by
  obtain ⟨h, hl, hw, hlo, hhi⟩ := h
  unfold cmdMatch
  rcases hk with rfl | rfl | rfl | rfl | rfl
  all_goals repeat' fails_step h hw

end Onex
