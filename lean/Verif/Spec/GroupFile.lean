import Verif.Model.Groupable
import Verif.Spec.GroupSet
import Verif.Spec.Table

/-!
# Group files: assumptions on number formatting, and states whose groups can be stored
-/

namespace Onex

variable {α : Type} [DataT α]

/-- What is assumed of printing and reading numbers: a printed number that satisfies `P`, followed
by a space, is read back as `rt` of it. -/
structure Spec.IOok (io : NumIO α) (P : α → Prop) (rt rt6 : α → α) : Prop where
  word : ∀ v, P v → ∃ c t, io.show16 v = c :: t ∧ isSpace c = false
  read : ∀ v, P v → ∀ t, io.read (io.show16 v ++ ' ' :: t) = some (rt v, ' ' :: t)
  keep : ∀ v, P v → P (rt v)
  word6 : ∀ v, P v → ∃ c t, io.show6 v = c :: t ∧ isSpace c = false
  read6 : ∀ v, P v → ∀ t, io.read (io.show6 v ++ ' ' :: t) = some (rt6 v, ' ' :: t)
  keep6 : ∀ v, P v → P (rt6 v)

namespace Spec

/-- Sizes for which all numbers in a group file are `int`s. -/
structure SizeOk (cnt L : Nat) : Prop where
  count : cnt ≤ 2147483647
  length : L < 2147483647
  prod : cnt * L ≤ 2147483647

/-- The states of datasets of `cnt` series of length `L` reached by a grouping, then any number of matches and of moves of
the groups through a file (saved, then loaded into any dataset of the same shape). All values of the
dataset, and the threshold, satisfy `P`. -/
inductive Kept (io : NumIO α) (P : α → Prop) (cnt L : Nat) : GSet α → Prop where
  | grouped {env : Env α} {s : GSet α} {R : List (List α)} {name th n s'} (hR : s.ds.Holds L R) (hc : R.length = cnt) (hP : ∀ r ∈ R, ∀ v ∈ r, P v)
      (hth : P th) (h : s.groupAllLengths env name th = (.ok n, s')) : Kept io P cnt L s'
  | matched {s env query c s'} (hs : Kept io P cnt L s) (h : s.getBestMatch env query = (.ok c, s')) :
      Kept io P cnt L s'
  | reloaded {s : GSet α} {env : Env α} {text} {t : GSet α} {n t'} (hs : Kept io P cnt L s) (hio : env.io = io)
      (hsave : s.saveGroups env true false = .ok text) (hc : t.ds.itemCount = cnt) (hl : t.ds.itemLength = L)
      (hload : t.loadGroups env (some text) = (.ok n, t')) : Kept io P cnt L t'

/-- Group `g'` is a copy of `g`: the representative up to `rt`, the same members (listed in the opposite order), the same
count. -/
structure CopyOf (rt : α → α) (l : Int) (ds : Dataset α) (mm : List Membership) (g : Group α)
    (ds' : Dataset α) (mm' : List Membership) (g' : Group α) : Prop where
  rep : ∃ c c', g.centroid.resolve ds = .ok c ∧ g'.centroid.resolve ds' = .ok c' ∧ c'.vals = c.vals.map rt
  members : ∃ ms : List Coord, g.getMembers ds mm = .ok (ms.map (subView ds l)) ∧
    g'.getMembers ds' mm' = .ok (ms.reverse.map (subView ds' l)) ∧ g.count = ms.length
  count : g'.count = g.count

end Spec

end Onex
