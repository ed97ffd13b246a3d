import Verif.Proofs.Command
import Verif.Props.Cli

/-!
# Property C64: every command line makes the call it stands for, and nothing else
-/

namespace Onex

open Spec

set_option linter.unusedSectionVars false

variable {α : Type} [DataT α]

/-- **C64.** A line whose words stand for a library call makes exactly that call, with those arguments, whatever spaces separate
the words.  The session goes on with the library in the state the call leaves, also after an exception; only `bad_alloc` ends it, and
undefined behaviour of the library is undefined behaviour of the program. -/
theorem C64_call (env : Env α) (fs : FS) (s : Session α) (line : Text) (args : List Text) (c : Call α)
    (hl : LineHas [' '] line args) (hm : Means env fs args c) : mainStep env fs s line = afterCall s (s.api.step env c) := by
  obtain ⟨name, rest, rfl, h1, h2, h3, h4⟩ := means_run hm s
  exact call_after env fs s hl h1 h2 h3 h4

/-- **C64.** A line stands for at most one call. -/
theorem C64_unambiguous (env : Env α) (fs : FS) (args : List Text) (c c' : Call α) (h : Means env fs args c)
    (h' : Means env fs args c') : c = c' := by
  have e := (means_eval h).symm.trans (means_eval h')
  rwa [Res.ok.injEq] at e

/-- **C64.** A line that stands for no call does only what `Otherwise` says: end the session, switch the timer, or nothing; or it is the
undefined `match` with four arguments. -/
theorem C64_otherwise (env : Env α) (fs : FS) (s : Session α) (line : Text) (args : List Text)
    (hl : LineHas [' '] line args) (hm : ∀ c, ¬ Means env fs args c) : Otherwise s args (mainStep env fs s line) := by
  by_cases h5 : FiveWordMatch args
  · have : mainStep env fs s line = .crashes := five_crashes env fs s hl h5
    rw [this]
    exact .fiveWords args h5
  rcases args with _ | ⟨name, rest⟩
  · have : mainStep env fs s line = .continues s := by
      unfold mainStep processLine
      rw [tokenize_of_lineHas hl]
    rw [this]
    exact .nothing _ (by simp) (by simp) (by simp) h5
  by_cases hq : name = "quit".toList
  · subst hq
    have : mainStep env fs s line = .ends s := by
      unfold mainStep
      rw [processLine_words env fs s hl, if_neg (by decide), if_pos (Or.inl rfl)]
    rw [this]
    exact .quit rest
  by_cases he : name = "exit".toList
  · subst he
    have : mainStep env fs s line = .ends s := by
      unfold mainStep
      rw [processLine_words env fs s hl, if_neg (by decide), if_pos (Or.inr rfl)]
    rw [this]
    exact .exit rest
  by_cases h1 : name :: rest = ["timer".toList, "on".toList]
  · simp only [List.cons.injEq] at h1
    obtain ⟨rfl, rfl⟩ := h1
    have : mainStep env fs s line = .continues { s with timer := true } := by
      unfold mainStep
      rw [processLine_words env fs s hl]
      rfl
    rw [this]
    exact .timerOn
  by_cases h2 : name :: rest = ["timer".toList, "off".toList]
  · simp only [List.cons.injEq] at h2
    obtain ⟨rfl, rfl⟩ := h2
    have : mainStep env fs s line = .continues { s with timer := false } := by
      unfold mainStep
      rw [processLine_words env fs s hl]
      rfl
    rw [this]
    exact .timerOff
  rw [step_quiet env fs s hl hq he (command_quiet env fs s name rest (lineHas_ne hl) hm ⟨h1, h2⟩ h5)]
  exact .nothing _ (by simpa using hq) (by simpa using he) ⟨h1, h2⟩ h5

/-- **C64.** `Otherwise` leaves no choice. -/
theorem C64_otherwise_unambiguous (s : Session α) (args : List Text) (o o' : LoopOut α) (h : Otherwise s args o)
    (h' : Otherwise s args o') : o = o' := by
  have f1 : ∀ rest, ¬ FiveWordMatch ("quit".toList :: rest) := fun rest h => by simpa using h.2.1
  have f2 : ∀ rest, ¬ FiveWordMatch ("exit".toList :: rest) := fun rest h => by simpa using h.2.1
  have f3 : ∀ w, ¬ FiveWordMatch ["timer".toList, w] := fun w h => by simpa using h.1
  cases h <;> cases h' <;> simp_all

/-- **C64.** A session is a sequence of library calls: as long as no line is `quit`, `exit` or the undefined `match` and no call runs out
of memory, the library is afterwards in the state the calls lead to, one after the other, and has given the answers they give. -/
theorem C64_session_any (inputs : List (Env α × FS × Option Text)) (calls : List (Env α × Call α)) (h : Script inputs calls)
    (s : Session α)
    (hp : (Res.throw .badAlloc) ∉ answersTo s.api calls) :
    match Api.run s.api calls with
    | some a => ∃ timer, mainLoop s false inputs = .continues ⟨a, timer, s.answers ++ answersTo s.api calls⟩
    | none => mainLoop s false inputs = .crashes := by
  induction h generalizing s with
  | nil => exact ⟨s.timer, by rw [answersTo, List.append_nil]; rfl⟩
  | @call env fs line args c lines calls hl hm h ih =>
    have e := C64_call env fs s line args c hl hm
    rw [answersTo] at hp
    rw [Api.run, mainLoop, answersTo]
    simp only [Bool.false_eq_true, if_false]
    rw [e]
    rcases hx : s.api.step env c with ⟨r, a⟩
    rw [hx] at hp
    have hp' : (Res.throw .badAlloc) ∉ answersTo a calls := fun h => hp (List.mem_cons_of_mem _ h)
    rcases r with x | x | x
    · rw [List.append_cons]
      exact ih ⟨a, s.timer, s.answers ++ [.ok x]⟩ hp'
    · have hb : x ≠ .badAlloc := by
        rintro rfl
        exact hp (List.mem_cons_self ..)
      have : afterCall s ((Res.throw x : Res (Ans α)), a) = .continues ⟨a, s.timer, s.answers ++ [.throw x]⟩ := by
        cases x <;> first | rfl | exact absurd rfl hb
      rw [List.append_cons, this]
      exact ih ⟨a, s.timer, s.answers ++ [.throw x]⟩ hp'
    · rfl
  | @other env fs line args lines calls hl hm hq he h5 h ih =>
    have o := C64_otherwise env fs s line args hl hm
    rw [mainLoop]
    simp only [Bool.false_eq_true, if_false]
    have : ∃ t, mainStep env fs s line = .continues { s with timer := t } := by
      generalize mainStep env fs s line = m at o
      cases o with
      | quit rest => simp at hq
      | exit rest => simp at he
      | timerOn => exact ⟨_, rfl⟩
      | timerOff => exact ⟨_, rfl⟩
      | fiveWords _ h => exact absurd h h5
      | nothing => exact ⟨s.timer, rfl⟩
    obtain ⟨t, e⟩ := this
    rw [e]
    exact ih { s with timer := t } hp

/-- **C64.** Every line does one or the other, so a session is a sequence of library calls. As long as no line is `quit`, `exit`
or the undefined `match` and no call is `paa` (which alone can run out of memory, see C46), the library is afterwards in the state
the calls lead to, one after the other, and has given the answers they give. -/
theorem C64_session (inputs : List (Env α × FS × Option Text)) (calls : List (Env α × Call α)) (h : Script inputs calls)
    (hp : ∀ x ∈ calls, ∀ i n, x.2 ≠ .paa i n) (s : Session α) :
    match Api.run s.api calls with
    | some a => ∃ timer, mainLoop s false inputs = .continues ⟨a, timer, s.answers ++ answersTo s.api calls⟩
    | none => mainLoop s false inputs = .crashes := by
  refine C64_session_any inputs calls h s ?_
  clear h
  generalize s.api = a
  induction calls generalizing a with
  | nil => simp [answersTo]
  | cons x calls ih =>
    rw [answersTo, List.mem_cons, not_or]
    refine ⟨fun hx => ?_, ih (fun y hy => hp y (List.mem_cons_of_mem _ hy)) _⟩
    obtain ⟨i, n, _, ec, _⟩ := step_badAlloc x.1 a x.2 hx.symm
    exact hp x (List.mem_cons_self ..) i n ec

/-- **C64.** At the end of input the program asks, and asks again until the answer is decisive: `n` continues the session as it was, and
`y`, an empty line or a second end of input ends it. -/
theorem C64_end_of_input (s : Session α) (x : Env α × FS) (asked : List (Env α × FS × Text)) (y : Env α × FS)
    (rest : List (Env α × FS × Option Text)) (h : ∀ a ∈ asked, a.2.2 ∉ [['y'], ['n'], []]) :
    let pre := (x.1, x.2, none) :: asked.map fun a => (a.1, a.2.1, some a.2.2)
    mainLoop s false (pre ++ (y.1, y.2, some ['n']) :: rest) = mainLoop s false rest ∧
    ∀ answer, (answer = none ∨ answer = some ['y'] ∨ answer = some []) →
      mainLoop s false (pre ++ (y.1, y.2, answer) :: rest) = .ends s := by
  intro pre
  have key : ∀ tail, mainLoop s false (pre ++ tail) = mainLoop s true tail := by
    intro tail
    show mainLoop s true ((asked.map fun a => (a.1, a.2.1, some a.2.2)) ++ tail) = _
    clear pre
    induction asked with
    | nil => rfl
    | cons a as ih =>
      have ha := h a (by simp)
      simp only [List.mem_cons, List.not_mem_nil, or_false, not_or] at ha
      rw [List.map_cons, List.cons_append, mainLoop, if_pos rfl, if_neg (by simp [ha]), ← ih fun b hb => h b (by simp [hb])]
      simp [ha]
  constructor
  · rw [key, mainLoop]
    simp
  · rintro answer (rfl | rfl | rfl) <;> rw [key, mainLoop] <;> simp

/-- Cases for the theorems above: a line that stands for a call, one that stands for none, and a session of both. -/
example (env : Env α) (fs : FS) : LineHas [' '] " match  0 1 +7 ".toList ["match".toList, ['0'], ['1'], ['+', '7']] ∧
    Means env fs ["match".toList, ['0'], ['1'], ['+', '7']] (.bestMatch 0 1 7 (-1) (-1)) ∧
    (∀ c, ¬ Means env fs ["match".toList, ['0']] c) := by
  refine ⟨lineHas_self " match  0 1 +7 ".toList, .match _ _ _ _ _ _ (reads_of_stoi rfl) (reads_of_stoi rfl) (reads_of_stoi rfl), ?_⟩
  intro c h
  cases h

example (env : Env α) (fs : FS) (s : Session α) :
    Script [(env, fs, some "timer on".toList), (env, fs, some "normalize 3".toList)] [(env, .normalize 3)] ∧
    ∃ a timer, mainLoop s false [(env, fs, some "timer on".toList), (env, fs, some "unload 3".toList)] =
      .continues ⟨a, timer, s.answers ++ answersTo s.api [(env, .unload 3)]⟩ := by
  have ht : ∀ c, ¬ Means env fs ["timer".toList, "on".toList] c := by
    intro c h
    cases h
  have h5 : ¬ FiveWordMatch ["timer".toList, "on".toList] := fun h => by simpa using h.1
  refine ⟨.other (lineHas_self _) ht (by decide) (by decide) h5 (.call (lineHas_self _) (.normalize _ 3 (reads_of_stoi rfl)) .nil), ?_⟩
  have hs : Script [(env, fs, some "timer on".toList), (env, fs, some "unload 3".toList)] [(env, .unload 3)] :=
    .other (lineHas_self _) ht (by decide) (by decide) h5 (.call (lineHas_self _) (.unload _ [] (by simp) 3 (reads_of_stoi rfl)) .nil)
  have := C64_session _ _ hs (by simp) s
  have hr : ∃ a, Api.run s.api [(env, .unload 3)] = some a := by
    unfold Api.run Api.run
    have hg : ∀ w, s.api.get 3 ≠ .ub w := by
      intro w
      unfold Api.get
      split_ifs
      · simp
      · split <;> simp
    simp only [Api.step, Api.unloadDataset]
    rcases h : s.api.get 3 with x | x | x
    · simp [Res.map]
    · simp [Res.map]
    · exact absurd h (hg x)
  obtain ⟨a, ha⟩ := hr
  rw [ha] at this
  obtain ⟨t, ht⟩ := this
  exact ⟨a, t, ht⟩

end Onex
