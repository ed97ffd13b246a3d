import Verif.Model.Dataset

/-!
# What a dataset and a data file hold, said without the loading and indexing code

`Dataset.Holds`: the memory of a dataset is a table. `Spec.FileHas`: a text consists of given
lines. `Spec.LineHas`: a line consists of given tokens.
-/

namespace Onex

/-- The dataset is the table `R`: all rows have length `L`, and the buffer is the rows one after the other
(perhaps followed by unused memory). -/
structure Dataset.Holds {α : Type} (ds : Dataset α) (L : Nat) (R : List (List α)) : Prop where
  rows : ∀ r ∈ R, r.length = L
  itemLength : ds.itemLength = L
  itemCount : ds.itemCount = R.length
  data : ∃ slack, ds.data = some (R.flatten ++ slack)

/-- Every element that the item count and length promise is in the buffer. -/
structure Dataset.Readable {α : Type} (ds : Dataset α) : Prop where
  count : 0 ≤ ds.itemCount
  unloaded : ds.data = none → ds.itemCount = 0
  loaded : ∀ b, ds.data = some b → ds.itemCount * ds.itemLength ≤ len b

namespace Spec

/-- `text` is the sequence of lines `lines`. The newline after the last line may be missing if that line is not
empty. -/
inductive FileHas : Text → List Text → Prop where
  | nil : FileHas [] []
  | last (l : Text) (h : l ≠ []) (hn : '\n' ∉ l) : FileHas l [l]
  | cons (l t : Text) (ls : List Text) (hn : '\n' ∉ l) (h : FileHas t ls) :
      FileHas (l ++ '\n' :: t) (l :: ls)

/-- `line` consists of the tokens `toks`, separated, preceded and followed by any number of
characters from `seps` (at least one between two tokens). -/
inductive LineHas (seps : Text) : Text → List Text → Prop where
  | nil (pad : Text) (h : ∀ c ∈ pad, c ∈ seps) : LineHas seps pad []
  | cons (pad tok rest : Text) (toks : List Text) (hp : ∀ c ∈ pad, c ∈ seps) (hne : tok ≠ [])
      (ht : ∀ c ∈ tok, c ∉ seps) (hr : rest = [] ∨ ∃ c r, rest = c :: r ∧ c ∈ seps)
      (h : LineHas seps rest toks) : LineHas seps (pad ++ tok ++ rest) (tok :: toks)

end Spec
end Onex
