import Verif.Spec.Cli

/-!
# What command lines mean
-/

namespace Onex.Spec

variable {α : Type} [DataT α]

/-- The library call the words of a line stand for, after the help texts of the program (cli/OnexCLI.cpp:75-413).  Words that are left out
have the default given there. -/
inductive Means (env : Env α) (fs : FS) : List Text → Call α → Prop where
  | load (p : Text) : Means env fs ["load".toList, p] (.load (fs.read p) (String.ofList p) 0 0 [' '])
  | loadRows (p n : Text) (rows : Int) (hn : ReadsInt n rows) :
      Means env fs ["load".toList, p, n] (.load (fs.read p) (String.ofList p) rows 0 [' '])
  | loadColumns (p n c : Text) (rows col : Int) (hn : ReadsInt n rows) (hc : ReadsInt c col) :
      Means env fs ["load".toList, p, n, c] (.load (fs.read p) (String.ofList p) rows col [' '])
  | loadSeparators (p n c seps : Text) (rows col : Int) (hn : ReadsInt n rows) (hc : ReadsInt c col) :
      Means env fs ["load".toList, p, n, c, seps] (.load (fs.read p) (String.ofList p) rows col seps)
  | save (i p : Text) (id : Int) (hi : ReadsInt i id) :
      Means env fs ["save".toList, i, p] (.save id (fs.canOpen p) (String.ofList p) ' ')
  | saveSeparator (i p : Text) (id : Int) (hi : ReadsInt i id) (sep : Char) (w : Text) :
      Means env fs ["save".toList, i, p, sep :: w] (.save id (fs.canOpen p) (String.ofList p) (if sep = '\n' then ' ' else sep))
  | unload (i : Text) (more : List Text) (hm : more.length ≤ 3) (id : Int) (hi : ReadsInt i id) :
      Means env fs ("unload".toList :: i :: more) (.unload id)
  | list : Means env fs ["list".toList, "dataset".toList] .allInfo
  | group (i t : Text) (id : Int) (hi : ReadsInt i id) (x : α) (ht : env.stod t = .val x) :
      Means env fs ["group".toList, i, t] (.group id x)
  | saveGroup (i p : Text) (id : Int) (hi : ReadsInt i id) :
      Means env fs ["saveGroup".toList, i, p] (.saveGroup id (fs.canOpen p) false)
  | saveGroupSizes (i p o : Text) (id flag : Int) (hi : ReadsInt i id) (ho : ReadsInt o flag) :
      Means env fs ["saveGroup".toList, i, p, o] (.saveGroup id (fs.canOpen p) (flag ≠ 0))
  | loadGroup (i p : Text) (id : Int) (hi : ReadsInt i id) :
      Means env fs ["loadGroup".toList, i, p] (.loadGroup id (fs.read p))
  | normalize (i : Text) (id : Int) (hi : ReadsInt i id) : Means env fs ["normalize".toList, i] (.normalize id)
  | paa (i n : Text) (id size : Int) (hi : ReadsInt i id) (hn : ReadsInt n size) :
      Means env fs ["paa".toList, i, n] (.paa id size)
  | match (d q t : Text) (db qdb ts : Int) (hd : ReadsInt d db) (hq : ReadsInt q qdb) (ht : ReadsInt t ts) :
      Means env fs ["match".toList, d, q, t] (.bestMatch db qdb ts (-1) (-1))
  | matchPart (d q t b e : Text) (db qdb ts start stop : Int) (hd : ReadsInt d db) (hq : ReadsInt q qdb) (ht : ReadsInt t ts)
      (hb : ReadsInt b start) (he : ReadsInt e stop) :
      Means env fs ["match".toList, d, q, t, b, e] (.bestMatch db qdb ts start stop)

/-- The session after a call made from it, with the call's answer: an exception ends the session only if it is `bad_alloc`. -/
def afterCall (s : Session α) : Res (Ans α) × Api α → LoopOut α
  | (.ok x, a) => .continues ⟨a, s.timer, s.answers ++ [.ok x]⟩
  | (.throw .badAlloc, a) => .ends ⟨a, s.timer, s.answers ++ [.throw .badAlloc]⟩
  | (.throw e, a) => .continues ⟨a, s.timer, s.answers ++ [.throw e]⟩
  | (.ub _, _) => .crashes

/-- The answers to calls made one after the other. -/
def answersTo (a : Api α) : List (Env α × Call α) → List (Res (Ans α))
  | [] => []
  | (env, c) :: calls => (a.step env c).1 :: answersTo (a.step env c).2 calls

/-- What a line does that stands for no call. -/
inductive Otherwise (s : Session α) : List Text → LoopOut α → Prop where
  | quit (rest : List Text) : Otherwise s ("quit".toList :: rest) (.ends s)
  | exit (rest : List Text) : Otherwise s ("exit".toList :: rest) (.ends s)
  | timerOn : Otherwise s ["timer".toList, "on".toList] (.continues { s with timer := true })
  | timerOff : Otherwise s ["timer".toList, "off".toList] (.continues { s with timer := false })
  | fiveWords (args : List Text) (h : FiveWordMatch args) : Otherwise s args .crashes
  | nothing (args : List Text) (hq : args.head? ≠ some "quit".toList) (he : args.head? ≠ some "exit".toList)
      (ht : args ≠ ["timer".toList, "on".toList] ∧ args ≠ ["timer".toList, "off".toList]) (h5 : ¬ FiveWordMatch args) :
      Otherwise s args (.continues s)

/-- The calls made by a session in which lines are typed, none of them `quit` or `exit` or the undefined `match`. -/
inductive Script : List (Env α × FS × Option Text) → List (Env α × Call α) → Prop where
  | nil : Script [] []
  | call {env fs line args c lines calls} (hl : LineHas [' '] line args) (hm : Means env fs args c) (h : Script lines calls) :
      Script ((env, fs, some line) :: lines) ((env, c) :: calls)
  | other {env fs line args lines calls} (hl : LineHas [' '] line args) (hm : ∀ c, ¬ Means env fs args c)
      (hq : args.head? ≠ some "quit".toList) (he : args.head? ≠ some "exit".toList) (h5 : ¬ FiveWordMatch args)
      (h : Script lines calls) : Script ((env, fs, some line) :: lines) calls

end Onex.Spec
