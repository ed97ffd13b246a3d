import Verif.Spec.Members
import Verif.Spec.Grouping

/-!
# Which window a search answers with
-/

namespace Onex.Spec
open DataT

/-- Length `l` is tried before `l'` for a query of length `q`: nearer to `q`, or as near and shorter. -/
def Nearer (q l l' : Int) : Prop := |l - q| < |l' - q| ∨ |l - q| = |l' - q| ∧ l < l'

/-- Window `c` of length `l` is the answer for a query of length `q`. `G l` are the groups of length `l`, the last of each list being the
representative; `w l c` is the distance from the query to window `c` of length `l`. Group `k` of length `l` has the nearest
representative of all lengths from 2 to `L`, and is the first such group, lengths being taken nearest to `q` first; `c` is the first of
its nearest members. -/
def Answer (w : Int → Coord → F Rounding.exact) (G : Int → List (List Coord)) (L : ℕ) (q : Int) (l : Int) (c : Coord) : Prop :=
  (2 ≤ l ∧ l ≤ L) ∧ w l c ≠ F.pinf ∧ ∃ (k : ℕ) (hk : k < (G l).length), ∃ a ∈ (G l)[k].getLast?,
    (∀ l' : Int, 2 ≤ l' → l' ≤ L → ∀ (k' : ℕ) (hk' : k' < (G l').length), ∀ a' ∈ (G l')[k'].getLast?,
      ¬ lt (w l' a') (w l a) = true ∧ (Nearer q l' l ∨ l' = l ∧ k' < k → lt (w l a) (w l' a') = true)) ∧
    (∀ c' ∈ (G l)[k], ¬ lt (w l c') (w l c) = true) ∧
    ∃ pre post, (G l)[k] = pre ++ c :: post ∧ ∀ c' ∈ pre, lt (w l c) (w l c') = true

end Onex.Spec
