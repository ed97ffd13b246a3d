import Verif.Model.Api

/-!
# The command line (cli/OnexCLI.cpp, cli/Command.hpp)

Text printed for the user is not modelled; what is: which API calls a line makes, what the session state is
afterwards, and whether the session goes on.
-/

namespace Onex

/-- Session state: `gOnexAPI` and `gTimerEnabled`, cli/OnexCLI.cpp:33-34.  `answers` is what the library calls made so far have
answered, first to last, texts of files written included; the commands print from it. -/
structure Session (α : Type) where
  api : Api α
  timer : Bool
  answers : List (Res (Ans α))

/-- The file system as seen by one command: contents for reading, and whether a path can be
opened for writing. -/
structure FS where
  read : Text → Option Text
  canOpen : Text → Bool

variable {α : Type} [DataT α]

/-- `std::stoi` -/
def stoi (t : Text) : Res Int :=
  let (neg, ds, _) := splitInt (t.dropWhile isSpace)
  if ds = [] then .throw .invalidArgument
  else
    let v : Int := if neg then -(digitsVal ds : Int) else (digitsVal ds : Int)
    if inIntRange v then .ok v else .throw .outOfRange

/-- `stod` as used by the `group` command, cli/OnexCLI.cpp:249 -/
def cliStod (env : Env α) (t : Text) : Res α :=
  match env.stod t with
  | .val x => .ok x
  | .invalid => .throw .invalidArgument
  | .range => .throw .outOfRange

/-- `args[i]` -/
def arg (args : List Text) (i : Int) : Res Text := vget args i

/-- Run an API call from the session, keeping its answer. -/
def Session.call (env : Env α) (s : Session α) (c : Call α) : Eff (Session α) Unit :=
  let (r, a) := s.api.step env c
  (r.map fun _ => (), { s with api := a, answers := s.answers ++ [r] })

/-- First evaluate the arguments (`pre`), then make the call. -/
def Session.callWith (env : Env α) (s : Session α) (pre : Res (Call α)) : Eff (Session α) Unit :=
  match pre with
  | .ok c => s.call env c
  | .throw e => (.throw e, s)
  | .ub w => (.ub w, s)

/-- `tooFewArgs(args, lo) || tooManyArgs(args, hi)`, cli/OnexCLI.cpp:37-53 -/
def badArgs (args : List Text) (lo hi : Int) : Bool :=
  decide (len args < lo) || decide (len args > hi)

/-- The `load` command, cli/OnexCLI.cpp:75-98 -/
def cmdLoad (fs : FS) (args : List Text) : Res (Call α) := do
  let path ← arg args 1
  let maxNumRow ← if len args > 2 then do stoi (← arg args 2) else pure 0
  let startCol ← if len args > 3 then do stoi (← arg args 3) else pure 0
  let seps ← if len args > 4 then arg args 4 else pure [' ']
  return .load (fs.read path) (String.ofList path) maxNumRow startCol seps

/-- The `save` command, cli/OnexCLI.cpp:115-131 -/
def cmdSave (fs : FS) (args : List Text) : Res (Call α) := do
  let index ← stoi (← arg args 1)
  let path ← arg args 2
  let sep ←
    if len args = 4 then do
      let c ← vget (← arg args 3) 0
      pure (if c ≠ '\n' then c else ' ')
    else pure ' '
  return .save index (fs.canOpen path) (String.ofList path) sep

/-- The `unload` command, cli/OnexCLI.cpp:142-155 -/
def cmdUnload (args : List Text) : Res (Call α) := do
  let index ← stoi (← arg args 1)
  return .unload index

/-- The `group` command, cli/OnexCLI.cpp:241-259 -/
def cmdGroup (env : Env α) (args : List Text) : Res (Call α) := do
  let index ← stoi (← arg args 1)
  let st ← cliStod env (← arg args 2)
  return .group index st

/-- The `saveGroup` command, cli/OnexCLI.cpp:270-284 -/
def cmdSaveGroup (fs : FS) (args : List Text) : Res (Call α) := do
  let index ← stoi (← arg args 1)
  let sizeOnly ← if len args = 4 then do stoi (← arg args 3) else pure 0
  let path ← arg args 2
  return .saveGroup index (fs.canOpen path) (sizeOnly ≠ 0)

/-- The `loadGroup` command, cli/OnexCLI.cpp:295-308 -/
def cmdLoadGroup (fs : FS) (args : List Text) : Res (Call α) := do
  let index ← stoi (← arg args 1)
  let path ← arg args 2
  return .loadGroup index (fs.read path)

/-- The `normalize` command, cli/OnexCLI.cpp:320-333 -/
def cmdNormalize (args : List Text) : Res (Call α) := do
  let index ← stoi (← arg args 1)
  return .normalize index

/-- The `paa` command, cli/OnexCLI.cpp:341-359 -/
def cmdPAA (args : List Text) : Res (Call α) := do
  let index ← stoi (← arg args 1)
  let n ← stoi (← arg args 2)
  return .paa index n

/-- The `match` command, cli/OnexCLI.cpp:370-401.  With five arguments `args[5]` is read although
it does not exist. -/
def cmdMatch (args : List Text) : Res (Call α) := do
  let db ← stoi (← arg args 1)
  let q ← stoi (← arg args 2)
  let ts ← stoi (← arg args 3)
  let (start, stop) ←
    if len args > 4 then do
      let s ← stoi (← arg args 4)
      let e ← stoi (← arg args 5)
      pure (s, e)
    else pure (-1, -1)
  return .bestMatch db q ts start stop

/-- `commands[args[0]]->doCommand(args)` for the table at cli/OnexCLI.cpp:422-434; unknown names are reported
(line 521-524) and do nothing. -/
def doCommand (env : Env α) (fs : FS) (s : Session α) (name : Text) (args : List Text) :
    Eff (Session α) Unit :=
  let guarded (lo hi : Int) (pre : Res (Call α)) : Eff (Session α) Unit :=
    if badArgs args lo hi then (.ok (), s) else s.callWith env pre
  if name = "load".toList then guarded 2 5 (cmdLoad fs args)
  else if name = "save".toList then guarded 3 4 (cmdSave fs args)
  else if name = "unload".toList then guarded 2 5 (cmdUnload args)
  else if name = "list".toList then
    -- cli/OnexCLI.cpp:165-194
    if badArgs args 2 2 then (.ok (), s)
    else if arg args 1 = .ok "dataset".toList then s.call env .allInfo
    else (.ok (), s)
  else if name = "timer".toList then
    -- cli/OnexCLI.cpp:201-230
    if badArgs args 1 2 then (.ok (), s)
    else if len args = 1 then (.ok (), s)
    else if arg args 1 = .ok "on".toList then (.ok (), { s with timer := true })
    else if arg args 1 = .ok "off".toList then (.ok (), { s with timer := false })
    else (.ok (), s)
  else if name = "group".toList then guarded 3 3 (cmdGroup env args)
  else if name = "saveGroup".toList then guarded 3 4 (cmdSaveGroup fs args)
  else if name = "loadGroup".toList then guarded 3 3 (cmdLoadGroup fs args)
  else if name = "normalize".toList then guarded 2 2 (cmdNormalize args)
  else if name = "paa".toList then guarded 3 3 (cmdPAA args)
  else if name = "match".toList then guarded 4 6 (cmdMatch args)
  else (.ok (), s)

/-- `processLine`, cli/OnexCLI.cpp:488-531: outcome (whether to quit) and new session. `help` only
prints. -/
def processLine (env : Env α) (fs : FS) (s : Session α) (line : Text) : Eff (Session α) Bool :=
  match tokenize [' '] line with
  | [] => (.ok false, s)
  | name :: rest =>
    let args := name :: rest
    if name.take 2 = ['/', '/'] then (.ok false, s)
    else if name = "quit".toList ∨ name = "exit".toList then (.ok true, s)
    else if name = "help".toList then (.ok false, s)
    else
      let (r, s) := doCommand env fs s name args
      (r.map fun _ => false, s)

/-- What the main loop does after a line. -/
inductive LoopOut (α : Type) where
  | continues (s : Session α)
  | ends (s : Session α)
  | crashes

/-- One round of the main loop with an input line, cli/OnexCLI.cpp:569-600: `OnexException` and `std::logic_error`
(`invalid_argument`, `out_of_range`, `length_error`) are reported, anything else ends the session. -/
def mainStep (env : Env α) (fs : FS) (s : Session α) (line : Text) : LoopOut α :=
  match processLine env fs s line with
  | (.ok true, s) => .ends s
  | (.ok false, s) => .continues s
  | (.throw .badAlloc, s) => .ends s
  | (.throw _, s) => .continues s
  | (.ub _, _) => .crashes

/-- The main loop, cli/OnexCLI.cpp:561-601, on a sequence of inputs, each with the environment and the files at that moment. `none` is the end
of input; then `wantToQuitByEOF` (cli/OnexCLI.cpp:533-548) asks (`asking`) until the answer is decisive.  When the inputs are
used up the loop waits for more: `continues`. -/
def mainLoop (s : Session α) (asking : Bool) : List (Env α × FS × Option Text) → LoopOut α
  | [] => .continues s
  | (_, _, none) :: rest => if asking then .ends s else mainLoop s true rest
  | (env, fs, some line) :: rest =>
    if asking then
      if line = ['y'] ∨ line = [] then .ends s else mainLoop s (line ≠ ['n']) rest
    else
      match mainStep env fs s line with
      | .continues s => mainLoop s false rest
      | .ends s => .ends s
      | .crashes => .crashes

end Onex
