import Verif.Model.Flt

/-!
# "The first least value below a bound"
-/

namespace Onex.Spec
open DataT

/-- Among `vals`, the first that is least and below `bound`: `r` is its position and value; if none is below
`bound`, `r` is no position and `bound`. -/
def FirstBelow {ρ : Rounding} (vals : List (F ρ)) (bound : F ρ) (r : Option Int × F ρ) : Prop :=
  (r = (none, bound) ∧ ∀ v ∈ vals, ¬ lt v bound = true) ∨
  ∃ (k : Nat) (h : k < vals.length), r = (some (k : Int), vals[k]) ∧ lt vals[k] bound = true ∧
    ∀ (j : Nat) (hj : j < vals.length), ¬ lt vals[j] vals[k] = true ∧
      (j < k → lt vals[k] vals[j] = true)

end Onex.Spec
