import Verif.Spec.GroupFile

/-!
# Group files, whoever wrote them
-/

namespace Onex.Spec

variable {α : Type} [DataT α]

/-- A group as described in a file: the values of its representative, and its members. -/
structure FileGroup (α : Type) where
  rep : List α
  members : List Coord

/-- What a group file describes: threshold, distance, and the groups of each length. -/
structure GroupDoc (α : Type) where
  threshold : α
  distance : String
  groups : ℕ → List (FileGroup α)

/-- A group in a file: a line with the representative, a line with the number of members and the members. -/
def FileGroup.text (io : NumIO α) (g : FileGroup α) : Text :=
  g.rep.flatMap (fun v => io.show16 v ++ [' ']) ++ ['\n'] ++
    (showInt g.members.length ++ [' '] ++ g.members.flatMap (fun c => showInt c.1 ++ [' '] ++ (showInt c.2 ++ [' ']))) ++ ['\n']

/-- The file for a dataset of `cnt` series of length `L`: version, threshold and shape; the range of lengths; the distance; then, for each
length from 2 to `L`, the number of groups and the groups. -/
def GroupDoc.text (io : NumIO α) (cnt L : ℕ) (d : GroupDoc α) : Text :=
  showInt 1 ++ [' '] ++ io.show6 d.threshold ++ [' '] ++ showInt cnt ++ [' '] ++ showInt L ++ ['\n'] ++
    showInt 2 ++ [' '] ++ showInt (L + 1) ++ ['\n'] ++ d.distance.toList ++ ['\n'] ++
    (List.range' 2 (L - 1)).flatMap (fun l => showInt (d.groups l).length ++ ['\n'] ++ (d.groups l).flatMap (·.text io))

/-- The description fits a dataset of `cnt` series of length `L`: the distance is known, representatives have the length of their group,
members are sub-series of that length, none is named twice, and there are not too many groups to count.  All numbers satisfy `P`. -/
structure GroupDoc.Fits (P : α → Prop) (cnt L : ℕ) (d : GroupDoc α) : Prop where
  distance : d.distance = "euclidean" ∨ d.distance = "euclidean_dtw"
  threshold : P d.threshold
  rep : ∀ l, 2 ≤ l → l ≤ L → ∀ g ∈ d.groups l, g.rep.length = l ∧ ∀ v ∈ g.rep, P v
  member : ∀ l, 2 ≤ l → l ≤ L → ∀ g ∈ d.groups l, ∀ c ∈ g.members, IsSub cnt L l c
  once : ∀ l, 2 ≤ l → l ≤ L → ((d.groups l).map (·.members)).flatten.Nodup
  count : ∀ l, 2 ≤ l → l ≤ L → (d.groups l).length ≤ 2147483647

/-- Every length has a group and every group has a member. -/
def GroupDoc.Full (L : ℕ) (d : GroupDoc α) : Prop :=
  ∀ l, 2 ≤ l → l ≤ L → d.groups l ≠ [] ∧ ∀ g ∈ d.groups l, g.members ≠ []

/-- The dataset has exactly the groups described, their representatives up to `rt`, their members in the opposite order. -/
def GroupDoc.HeldBy (rt : α → α) (L : ℕ) (d : GroupDoc α) (s : GSet α) : Prop :=
  (∀ l ls, GroupsOf s l ls → 2 ≤ l ∧ l ≤ L) ∧
  ∀ l : ℕ, 2 ≤ l → l ≤ L → ∃ ls, GroupsOf s l ls ∧ ls.groups.length = (d.groups l).length ∧
    ∀ (k : ℕ) (h : k < ls.groups.length) (h' : k < (d.groups l).length),
      (∃ c, ls.groups[k].centroid.resolve s.ds = .ok c ∧ c.vals = (d.groups l)[k].rep.map rt) ∧
      ls.groups[k].getMembers s.ds ls.memberMap = .ok ((d.groups l)[k].members.reverse.map (subView s.ds l)) ∧
      ls.groups[k].count = (d.groups l)[k].members.length

end Onex.Spec
