import Verif.Spec.Table
import Verif.Spec.Api
import Verif.Model.Cli

/-!
# Command lines, as the user sees them
-/

namespace Onex.Spec

/-- The commands, with the least and the greatest number of words (command included). -/
def usage : List (String × Nat × Nat) :=
  [("load", 2, 5), ("save", 3, 4), ("unload", 2, 5), ("list", 2, 2), ("timer", 1, 2), ("group", 3, 3),
   ("saveGroup", 3, 4), ("loadGroup", 3, 3), ("normalize", 2, 2), ("paa", 3, 3), ("match", 4, 6)]

/-- The words do not form a command: unknown name, or too few or too many words. -/
def UsageError (args : List Text) : Prop :=
  ∃ name rest, args = name :: rest ∧ name ≠ "quit".toList ∧ name ≠ "exit".toList ∧
    ∀ c lo hi, (c, lo, hi) ∈ usage → name = String.toList c → args.length < lo ∨ hi < args.length

/-- Which words of a command are integers. -/
def integerArgs : List (String × List Nat) :=
  [("load", [2, 3]), ("save", [1]), ("unload", [1]), ("group", [1]), ("saveGroup", [1, 3]), ("loadGroup", [1]),
   ("normalize", [1]), ("paa", [1, 2]), ("match", [1, 2, 3, 4, 5])]

/-- The text starts with a decimal integer that an `int` can hold: white space, perhaps a sign, digits. -/
def ReadsInt (t : Text) (z : Int) : Prop :=
  ∃ sp sgn ds rest, t = sp ++ sgn ++ ds ++ rest ∧ (∀ c ∈ sp, c ∈ [' ', '\n', '\t', '\r', '\x0b', '\x0c']) ∧
    (sgn = [] ∨ sgn = ['-'] ∨ sgn = ['+']) ∧ ds ≠ [] ∧ (∀ c ∈ ds, c.isDigit) ∧
    (∀ c ∈ rest.head?, ¬ c.isDigit) ∧
    z = (if sgn = ['-'] then -1 else 1) * (Nat.ofDigitChars 10 ds 0 : Int) ∧ -2147483648 ≤ z ∧ z ≤ 2147483647

/-- One of the words that have to be integers is not. -/
def NonNumeric (args : List Text) : Prop :=
  ∃ (c : String) (ks : List Nat) (k : Nat) (w : Text), (c, ks) ∈ integerArgs ∧ args.head? = some c.toList ∧ k ∈ ks ∧
    args[k]? = some w ∧ ∀ z, ¬ ReadsInt w z

/-- A `match` command with four arguments, all integers: `match db q index start`. -/
def FiveWordMatch (args : List Text) : Prop :=
  args.length = 5 ∧ args.head? = some "match".toList ∧ ∀ k w, 1 ≤ k → args[k]? = some w → ∃ z, ReadsInt w z

/-- The data of every id. -/
def dataOf {α : Type} (a : Api α) (j : Int) : Option (Dataset α) := (dataset a j).map GSet.ds

end Onex.Spec
