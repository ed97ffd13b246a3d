import Verif.Spec.Members
import Verif.Spec.Euclid
import Verif.Spec.RelErr
import Mathlib.Data.Real.Basic

/-!
# Leader clustering
-/

namespace Onex.Spec

/-- Leader clustering of a sequence with distance `D` and radius `h`. The first element of a group is its leader. Elements come
one at a time. An element farther than `h` from every leader founds a group; any other joins the group of its nearest leader, and
of the earliest of several nearest. Groups are listed in the order they were founded, the elements of a group latest first. -/
inductive Leader {β : Type} (D : β → β → ℝ) (h : ℝ) : List β → List (List β) → Prop where
  | nil : Leader D h [] []
  | found {cs G c} (hG : Leader D h cs G) (far : ∀ g ∈ G, ∀ a ∈ g.getLast?, h < D a c) :
      Leader D h (cs ++ [c]) (G ++ [[c]])
  | join {cs G c} (hG : Leader D h cs G) (k : ℕ) (hk : k < G.length) (a : β) (ha : a ∈ G[k].getLast?) (near : D a c ≤ h)
      (least : ∀ (j : ℕ) (hj : j < G.length), ∀ b ∈ G[j].getLast?, D a c ≤ D b c ∧ (j < k → D a c < D b c)) :
      Leader D h (cs ++ [c]) (G.set k (c :: G[k]))

/-- The sub-series of `cnt` series with `sub` starting points each: by starting point, then by series. -/
def subOrder (cnt sub : ℕ) : List Coord :=
  (List.range sub).flatMap fun (b : ℕ) => (List.range cnt).map fun (i : ℕ) => ((i : Int), (b : Int))

/-- What the named distances mean for series of the same length, in exact arithmetic. -/
inductive EqualDist (ratio : ℝ) : String → (List ℝ → List ℝ → ℝ) → Prop where
  | euclidean : EqualDist ratio "euclidean" rms
  | dtw : EqualDist ratio "euclidean_dtw" (fun a b => warpedIn (bandSize ratio (max a.length b.length)) a b)

end Onex.Spec
