import Verif.Proofs.CliArgs

/-!
# Properties of the command loop: C46
-/

namespace Onex

open Spec

set_option linter.unusedSectionVars false

variable {α : Type} [DataT α]

/-- **C46, ending the session.** The session ends only by `quit` or `exit`, or by a `paa` command on a dataset whose series
have negative length (which loading with a start column beyond the last column produces).

Partial: the property wants `quit`/`exit` to be the only way; see `C46_paa_counterexample`. -/
theorem C46_ends_partial (env : Env α) (fs : FS) (s s' : Session α) (line : Text) (args : List Text)
    (hl : LineHas [' '] line args) (h : mainStep env fs s line = .ends s') :
    (args.head? = some "quit".toList ∨ args.head? = some "exit".toList) ∧ s' = s ∨
    args.head? = some "paa".toList ∧ ∃ i n g, dataset s.api i = some g ∧ 0 < n ∧
      g.ds.itemCount * calcPAALength g.ds.itemLength n < 0 := by
  unfold mainStep at h
  rcases processLine_cases env fs s line args hl with hp | ⟨hp, hq⟩ | ⟨name, hn, R, hA, hp⟩
  · rw [hp] at h
    simp at h
  · rw [hp] at h
    simp only [LoopOut.ends.injEq] at h
    exact Or.inl ⟨hq, h.symm⟩
  · right
    rw [hp] at h
    rcases hA with ⟨t, rfl⟩ | ⟨e, he, rfl⟩ | ⟨c, rfl, hc⟩ | ⟨_, w, rfl⟩
    · simp [Res.map] at h
    · cases e <;> simp [Res.map] at h he
    · have hb : (s.api.step env c).1 = .throw .badAlloc := by
        unfold Session.call at h
        rcases hx : (s.api.step env c).1 with x | e | w
        · simp [hx, Res.map] at h
        · cases e <;> simp [hx, Res.map] at h ⊢
        · simp [hx, Res.map] at h
      obtain ⟨i, n, g, ec, hd, h0, hneg⟩ := step_badAlloc env s.api c hb
      exact ⟨by rw [hn, hc i n ec], i, n, g, hd, h0, hneg⟩
    · simp [Res.map] at h

/-- **C46, errors leave the datasets intact.** When a line fails with an error, every id still has the same data, no id is
gained or lost, and the timer setting is unchanged; and unless memory ran out the loop continues.

Partial in that memory running out ends the session (`C46_paa_counterexample`), and the groups of the dataset may be lost
(a rejected group file drops the groups). -/
theorem C46_error_intact_partial (env : Env α) (fs : FS) (s : Session α) (line : Text) (e : Exc)
    (h : (processLine env fs s line).1 = .throw e) :
    ∃ s', (mainStep env fs s line = .continues s' ∨ e = .badAlloc ∧ mainStep env fs s line = .ends s') ∧
      (∀ j, dataOf s'.api j = dataOf s.api j) ∧ s'.api.count = s.api.count ∧ s'.timer = s.timer := by
  have hcont : ∀ s', processLine env fs s line = (.throw e, s') →
      mainStep env fs s line = .continues s' ∨ e = .badAlloc ∧ mainStep env fs s line = .ends s' := by
    intro s' hs
    unfold mainStep
    rw [hs]
    cases e
    case badAlloc => exact Or.inr ⟨rfl, rfl⟩
    all_goals exact Or.inl rfl
  rcases processLine_cases env fs s line _ (lineHas_self line) with hp | ⟨hp, hq⟩ | ⟨name, hn, R, hA, hp⟩
  · rw [hp] at h
    simp at h
  · rw [hp] at h
    simp at h
  · rw [hp] at h
    have hR : R.1 = .throw e := by
      rcases hx : R.1 with x | x | x <;> simp [hx, Res.map] at h
      rw [h]
    have hp' : processLine env fs s line = (.throw e, R.2) := by
      rw [hp, hR]
      rfl
    refine ⟨R.2, hcont _ hp', ?_⟩
    rcases hA with ⟨t, rfl⟩ | ⟨e', he, rfl⟩ | ⟨c, rfl, hc⟩ | ⟨_, w, rfl⟩
    · simp at hR
    · exact ⟨fun _ => rfl, rfl, rfl⟩
    · have hs : (s.api.step env c).1 = .throw e := by
        unfold Session.call at hR
        rcases hx : (s.api.step env c).1 with x | x | x <;> simp [hx, Res.map] at hR
        rw [hR]
      obtain ⟨h1, h2⟩ := step_throw_data env s.api c e hs
      exact ⟨h1, h2, rfl⟩
    · simp at hR

/-- **C46, crashes.** Undefined behaviour while processing a line comes from the library call the line makes, or from a `match`
command with four arguments.

Partial: the property wants none; see `C46_match_counterexample`. -/
theorem C46_crash_partial (env : Env α) (fs : FS) (s : Session α) (line : Text) (args : List Text)
    (hl : LineHas [' '] line args) (h : mainStep env fs s line = .crashes) :
    FiveWordMatch args ∨ ∃ c w, (s.api.step env c).1 = .ub w := by
  unfold mainStep at h
  rcases processLine_cases env fs s line args hl with hp | ⟨hp, hq⟩ | ⟨name, hn, R, hA, hp⟩
  · rw [hp] at h
    simp at h
  · rw [hp] at h
    simp at h
  · rw [hp] at h
    rcases hA with ⟨t, rfl⟩ | ⟨e, he, rfl⟩ | ⟨c, rfl, hc⟩ | ⟨⟨h5, hh, hi⟩, w, rfl⟩
    · simp [Res.map] at h
    · cases e <;> simp [Res.map] at h
    · right
      unfold Session.call at h
      rcases hx : (s.api.step env c).1 with x | e | w
      · simp [hx, Res.map] at h
      · cases e <;> simp [hx, Res.map] at h
      · exact ⟨c, w, hx⟩
    · left
      have h5' : args.length = 5 := by
        simp only [len] at h5
        omega
      refine ⟨h5', hh, ?_⟩
      intro k w' hk hw
      obtain ⟨hlt, _⟩ := List.getElem?_eq_some_iff.mp hw
      obtain ⟨w2, z, e1, e2⟩ := hi k (by omega) (by omega)
      rw [arg_nat hw] at e1
      simp only [Res.ok.injEq] at e1
      subst e1
      exact ⟨z, reads_of_stoi e2⟩

/-- **C46, wrong commands.** A line that is not a command (unknown name, too few or too many arguments) changes nothing. -/
theorem C46_usage (env : Env α) (fs : FS) (s : Session α) (line : Text) (args : List Text)
    (hl : LineHas [' '] line args) (h : UsageError args) : mainStep env fs s line = .continues s := by
  obtain ⟨name, rest, rfl, hq1, hq2, hu⟩ := h
  have hd : doCommand env fs s name (name :: rest) = (.ok (), s) := by
    unfold doCommand
    dsimp only
    have hb : ∀ (c : String) (lo hi : Nat), (c, lo, hi) ∈ usage → name = c.toList →
        badArgs (name :: rest) lo hi = true := fun c lo hi hm e => badArgs_of (hu c lo hi hm e)
    refine if_elim (P := fun x => x = (Res.ok (), s)) (fun h => if_pos (hb "load" 2 5 (by simp [usage]) h)) ?_
    intro _
    refine if_elim (P := fun x => x = (Res.ok (), s)) (fun h => if_pos (hb "save" 3 4 (by simp [usage]) h)) ?_
    intro _
    refine if_elim (P := fun x => x = (Res.ok (), s)) (fun h => if_pos (hb "unload" 2 5 (by simp [usage]) h)) ?_
    intro _
    refine if_elim (P := fun x => x = (Res.ok (), s)) (fun h => if_pos (hb "list" 2 2 (by simp [usage]) h)) ?_
    intro _
    refine if_elim (P := fun x => x = (Res.ok (), s)) (fun h => if_pos (hb "timer" 1 2 (by simp [usage]) h)) ?_
    intro _
    refine if_elim (P := fun x => x = (Res.ok (), s)) (fun h => if_pos (hb "group" 3 3 (by simp [usage]) h)) ?_
    intro _
    refine if_elim (P := fun x => x = (Res.ok (), s)) (fun h => if_pos (hb "saveGroup" 3 4 (by simp [usage]) h)) ?_
    intro _
    refine if_elim (P := fun x => x = (Res.ok (), s)) (fun h => if_pos (hb "loadGroup" 3 3 (by simp [usage]) h)) ?_
    intro _
    refine if_elim (P := fun x => x = (Res.ok (), s)) (fun h => if_pos (hb "normalize" 2 2 (by simp [usage]) h)) ?_
    intro _
    refine if_elim (P := fun x => x = (Res.ok (), s)) (fun h => if_pos (hb "paa" 3 3 (by simp [usage]) h)) ?_
    intro _
    refine if_elim (P := fun x => x = (Res.ok (), s)) (fun h => if_pos (hb "match" 4 6 (by simp [usage]) h)) ?_
    intro _
    rfl
  exact step_quiet env fs s hl hq1 hq2 (Or.inl hd)

/-- **C46, non-numeric arguments.** When a word that has to be an integer is not, nothing changes and the loop continues. -/
theorem C46_non_numeric (env : Env α) (fs : FS) (s : Session α) (line : Text) (args : List Text)
    (hl : LineHas [' '] line args) (h : NonNumeric args) : mainStep env fs s line = .continues s := by
  obtain ⟨c, ks, k, w, hc, hh, hk, hw, hbad⟩ := h
  obtain ⟨rest, rfl⟩ := args_words hh
  have hlt : (k : Int) < len (c.toList :: rest) := by
    obtain ⟨hlt, _⟩ := List.getElem?_eq_some_iff.mp hw
    unfold len
    omega
  have hB : ∀ {lo hi : Int}, ¬ badArgs (c.toList :: rest) lo hi → BadAt (c.toList :: rest) k w lo hi := fun hb =>
    ⟨arg_nat hw, hlt, hbad, (not_badArgs hb).1, (not_badArgs hb).2⟩
  simp only [integerArgs, List.mem_cons, Prod.mk.injEq, List.not_mem_nil, or_false] at hc
  rcases hc with ⟨rfl, rfl⟩ | ⟨rfl, rfl⟩ | ⟨rfl, rfl⟩ | ⟨rfl, rfl⟩ | ⟨rfl, rfl⟩ | ⟨rfl, rfl⟩ | ⟨rfl, rfl⟩ | ⟨rfl, rfl⟩ | ⟨rfl, rfl⟩
  · refine step_quiet env fs s hl (by simp) (by simp) ?_
    exact key_nonNumeric env s 2 5 _ fun hb => fails_cmdLoad fs (by simp at hk; omega) (hB hb)
  · refine step_quiet env fs s hl (by simp) (by simp) ?_
    exact key_nonNumeric env s 3 4 _ fun hb => fails_cmdSave fs (by simp at hk; omega) (hB hb)
  · refine step_quiet env fs s hl (by simp) (by simp) ?_
    exact key_nonNumeric env s 2 5 _ fun hb => fails_cmdUnload (by simp at hk; omega) (hB hb)
  · refine step_quiet env fs s hl (by simp) (by simp) ?_
    exact key_nonNumeric env s 3 3 _ fun hb => fails_cmdGroup env (by simp at hk; omega) (hB hb)
  · refine step_quiet env fs s hl (by simp) (by simp) ?_
    exact key_nonNumeric env s 3 4 _ fun hb => fails_cmdSaveGroup fs (by simp at hk; omega) (hB hb)
  · refine step_quiet env fs s hl (by simp) (by simp) ?_
    exact key_nonNumeric env s 3 3 _ fun hb => fails_cmdLoadGroup fs (by simp at hk; omega) (hB hb)
  · refine step_quiet env fs s hl (by simp) (by simp) ?_
    exact key_nonNumeric env s 2 2 _ fun hb => fails_cmdNormalize (by simp at hk; omega) (hB hb)
  · refine step_quiet env fs s hl (by simp) (by simp) ?_
    exact key_nonNumeric env s 3 3 _ fun hb => fails_cmdPAA (by simp at hk; omega) (hB hb)
  · refine step_quiet env fs s hl (by simp) (by simp) ?_
    exact key_nonNumeric env s 4 6 _ fun hb => fails_cmdMatch (by simp at hk; omega) (hB hb)

/-- **C46, non-numeric threshold.** -/
theorem C46_non_numeric_threshold (env : Env α) (fs : FS) (s : Session α) (line : Text) (i w : Text)
    (hl : LineHas [' '] line ["group".toList, i, w]) (h : ∀ x, env.stod w ≠ .val x) :
    mainStep env fs s line = .continues s := by
  refine step_quiet env fs s hl (by simp) (by simp) ?_
  refine key_nonNumeric env s (args := ["group".toList, i, w]) 3 3 (cmdGroup env ["group".toList, i, w]) fun hb => ?_
  obtain ⟨h1, h2⟩ := not_badArgs hb
  unfold cmdGroup
  refine Fails.right (by tame) (by defined) ?_
  intro _ _
  refine Fails.right (by tame) (by defined) ?_
  intro _ _
  refine Fails.right (by tame) (by defined) ?_
  intro b hb2
  have : b = w := by
    simp [arg, vget] at hb2
    exact hb2.symm
  subst this
  refine Fails.left ?_
  unfold cliStod
  split
  · exact absurd ‹_› (h _)
  · exact ⟨_, by simp, rfl⟩
  · exact ⟨_, by simp, rfl⟩

/-- **C46 is false of the code:** `match` with four numeric arguments reads the sixth word of a five word line, in every
session. -/
theorem C46_match_counterexample (env : Env α) (fs : FS) (s : Session α) :
    mainStep env fs s "match 0 0 0 1".toList = .crashes := by
  have : processLine env fs s "match 0 0 0 1".toList = (.ub "read out of bounds", s) := by
    rfl
  unfold mainStep
  rw [this]

/-- **C46 is false of the code:** after loading a one column file from column 5 on, which succeeds, a `paa` command ends the
session. -/
theorem C46_paa_counterexample (env : Env α) (fs : FS) (ratio : α) (hf : fs.read ['f'] = some ['1', '\n']) :
    ∃ s, mainStep env fs ⟨Api.init ratio, false, []⟩ "load f 0 5".toList = .continues s ∧
      ∃ s', mainStep env fs s "paa 0 2".toList = .ends s' := by
  refine ⟨(Session.call env ⟨Api.init ratio, false, []⟩ (.load (some ['1', '\n']) "f" 0 5 [' '])).2, ?_, ?_⟩
  · unfold mainStep
    have : processLine env fs ⟨Api.init ratio, false, []⟩ "load f 0 5".toList =
        (.ok false, (Session.call env ⟨Api.init ratio, false, []⟩ (.load (some ['1', '\n']) "f" 0 5 [' '])).2) := by
      have h2 : processLine env fs ⟨Api.init ratio, false, []⟩ "load f 0 5".toList =
          ((Session.call env ⟨Api.init ratio, false, []⟩ (.load (fs.read ['f']) "f" 0 5 [' '])).1.map fun _ => false,
            (Session.call env ⟨Api.init ratio, false, []⟩ (.load (fs.read ['f']) "f" 0 5 [' '])).2) := rfl
      rw [h2, hf]
      rfl
    rw [this]
  · exact ⟨_, rfl⟩

/-! Lines meeting the hypotheses: an error in the words, a word that is no number, a comment, and quitting. -/

example : LineHas [' '] "  paa  0 ".toList ["paa".toList, ['0']] ∧ UsageError ["paa".toList, ['0']] := by
  refine ⟨lineHas_self _, "paa".toList, [['0']], rfl, by simp, by simp, ?_⟩
  intro c lo hi hc e
  simp only [usage, List.mem_cons, Prod.mk.injEq, List.not_mem_nil, or_false] at hc
  rcases hc with ⟨rfl, rfl, rfl⟩ | ⟨rfl, rfl, rfl⟩ | ⟨rfl, rfl, rfl⟩ | ⟨rfl, rfl, rfl⟩ | ⟨rfl, rfl, rfl⟩ | ⟨rfl, rfl, rfl⟩ |
    ⟨rfl, rfl, rfl⟩ | ⟨rfl, rfl, rfl⟩ | ⟨rfl, rfl, rfl⟩ | ⟨rfl, rfl, rfl⟩ | ⟨rfl, rfl, rfl⟩ <;> simp at e ⊢

example : NonNumeric ["paa".toList, ['0'], ['x']] := by
  refine ⟨"paa", [1, 2], 2, ['x'], by simp [integerArgs], rfl, by simp, rfl, ?_⟩
  rintro z ⟨sp, sgn, ds, rest, e, hsp, hsg, hne, hd, _⟩
  rcases sp with _ | ⟨a, sp⟩
  · rcases hsg with rfl | rfl | rfl
    · rcases ds with _ | ⟨d, ds⟩
      · exact hne rfl
      · simp only [List.nil_append, List.cons_append, List.cons.injEq] at e
        have := hd d (by simp)
        rw [← e.1] at this
        exact absurd this (by decide)
    · simp at e
    · simp at e
  · simp only [List.cons_append, List.cons.injEq] at e
    have := hsp a (by simp)
    rw [← e.1] at this
    exact absurd this (by decide)

example (env : Env α) (fs : FS) (s : Session α) : mainStep env fs s "unload 7x y".toList =
    mainStep env fs s "unload 7".toList := rfl

example (env : Env α) (fs : FS) (s : Session α) : mainStep env fs s " exit now".toList = .ends s := rfl

end Onex
