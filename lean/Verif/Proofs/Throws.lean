import Verif.Proofs.Loops
import Verif.Model.Cli

/-!
# Which exceptions a computation can throw
-/

namespace Onex

set_option linter.unusedSectionVars false

/-- Every exception a computation can throw satisfies `Q`. -/
def Throws {β : Type} (Q : Exc → Prop) (r : Res β) : Prop := ∀ e, r = .throw e → Q e

theorem Throws.bind {β γ : Type} {Q : Exc → Prop} {r : Res β} {f : β → Res γ} (h : Throws Q r)
    (hf : ∀ b, r = .ok b → Throws Q (f b)) : Throws Q (r >>= f) := by
  intro e he
  rcases r with b | e' | w
  · exact hf b rfl e he
  · have : e' = e := by
      have h' : Res.throw (α := γ) e' = .throw e := he
      simpa using h'
    subst this
    exact h _ rfl
  · have h' : Res.ub (α := γ) w = .throw e := he
    simp at h'

theorem Throws.ok {β : Type} {Q : Exc → Prop} (b : β) : Throws Q (.ok b) := by
  intro e he
  simp at he

theorem Throws.pure {β : Type} {Q : Exc → Prop} (b : β) : Throws Q (Pure.pure b) := Throws.ok b

theorem Throws.ub {β : Type} {Q : Exc → Prop} (w : String) : Throws Q (.ub w : Res β) := by
  intro e he
  simp at he

theorem Throws.forIntGo {σ : Type} {Q : Exc → Prop} {f : Int → σ → Res σ} (h : ∀ i s, Throws Q (f i s)) :
    ∀ (k : Nat) (i : Int) (s : σ), Throws Q (forIntGo f k i s)
  | 0, _, s => Throws.ok s
  | k + 1, i, s => by
    unfold Onex.forIntGo
    exact (h i s).bind fun b _ => Throws.forIntGo h k (i + 1) b

theorem Throws.forInt {σ : Type} {Q : Exc → Prop} {f : Int → σ → Res σ} (h : ∀ i s, Throws Q (f i s))
    (lo hi : Int) (s : σ) : Throws Q (forInt lo hi s f) :=
  Throws.forIntGo h _ lo s

theorem throws_vset {β : Type} {Q : Exc → Prop} (l : List β) (i : Int) (v : β) : Throws Q (vset l i v) := by
  unfold vset
  split
  · exact Throws.ok _
  · exact Throws.ub _

theorem Throws.throw {β : Type} {Q : Exc → Prop} {e : Exc} (h : Q e) : Throws Q (.throw e : Res β) := by
  intro e' he
  simp only [Res.throw.injEq] at he
  exact he ▸ h

theorem Throws.forBrkGo {σ : Type} {Q : Exc → Prop} {f : Int → σ → Res (Step σ)} (h : ∀ i s, Throws Q (f i s)) :
    ∀ (k : Nat) (i : Int) (s : σ), Throws Q (forBrkGo f k i s)
  | 0, _, s => Throws.ok s
  | k + 1, i, s => by
    unfold Onex.forBrkGo
    refine (h i s).bind fun b _ => ?_
    rcases b with b | b
    · exact Throws.forBrkGo h k (i + 1) b
    · exact Throws.ok b

theorem Throws.forBrk {σ : Type} {Q : Exc → Prop} {f : Int → σ → Res (Step σ)} (h : ∀ i s, Throws Q (f i s))
    (lo hi : Int) (s : σ) : Throws Q (forBrk lo hi s f) :=
  Throws.forBrkGo h _ lo s

theorem throws_vget {β : Type} {Q : Exc → Prop} (l : List β) (i : Int) : Throws Q (vget l i) := by
  unfold vget
  split
  · split
    · exact Throws.ok _
    · exact Throws.ub _
  · exact Throws.ub _

theorem throws_mget {β : Type} {Q : Exc → Prop} (l : Mat β) (i j : Int) : Throws Q (mget l i j) := by
  unfold mget
  exact (throws_vget _ _).bind fun _ _ => throws_vget _ _

theorem throws_mset {β : Type} {Q : Exc → Prop} (l : Mat β) (i j : Int) (v : β) : Throws Q (mset l i j v) := by
  unfold mset
  exact (throws_vget _ _).bind fun _ _ => (throws_vset _ _ _).bind fun _ _ => throws_vset _ _ _

/-- Anything but running out of memory. -/
abbrev Tame {β : Type} (r : Res β) : Prop := Throws (· ≠ Exc.badAlloc) r

/-- A computation known to be tame. -/
syntax "tame_leaf" : tactic

macro_rules | `(tactic| tame_leaf) => `(tactic| with_reducible exact Throws.ok _)
macro_rules | `(tactic| tame_leaf) => `(tactic| with_reducible exact Throws.pure _)
macro_rules | `(tactic| tame_leaf) => `(tactic| with_reducible exact Throws.ub _)
macro_rules | `(tactic| tame_leaf) => `(tactic| with_reducible exact throws_vget _ _)
macro_rules | `(tactic| tame_leaf) => `(tactic| with_reducible exact throws_vset _ _ _)
macro_rules | `(tactic| tame_leaf) => `(tactic| with_reducible exact throws_mget _ _ _)
macro_rules | `(tactic| tame_leaf) => `(tactic| with_reducible exact throws_mset _ _ _ _)
macro_rules | `(tactic| tame_leaf) => `(tactic| with_reducible exact Throws.throw (by simp))

/-- One step along the structure of a computation. -/
macro "tame_step" : tactic => `(tactic| first
  | tame_leaf
  | (with_reducible refine Throws.bind ?_ ?_)
  | (with_reducible refine Throws.forInt ?_ _ _ _)
  | (with_reducible refine Throws.forBrk ?_ _ _ _)
  | split
  | (with_reducible intro _)
  | dsimp only)

/-- Follow the structure of a computation. -/
macro "tame" : tactic => `(tactic| repeat' tame_step)

variable {α : Type} [DataT α]

theorem tame_tsGet (l : List α) (i : Int) : Tame (tsGet l i) := by
  unfold tsGet
  tame

macro_rules | `(tactic| tame_leaf) => `(tactic| with_reducible exact tame_tsGet _ _)

theorem tame_band (ratio : α) (n : Int) : Tame (calculateWarpingBandSize ratio n) := by
  unfold calculateWarpingBandSize
  tame

macro_rules | `(tactic| tame_leaf) => `(tactic| with_reducible exact tame_band _ _)

theorem tame_pairwise (x y : List α) (d : α) : Tame (pairwiseDistance x y d) := by
  unfold pairwiseDistance
  tame

theorem tame_warpedCell (a b : List α) (r i j : Int) (s : Mat α × α) : Tame (warpedCell a b r i j s) := by
  unfold warpedCell
  tame

macro_rules | `(tactic| tame_leaf) => `(tactic| with_reducible exact tame_warpedCell _ _ _ _ _ _)

theorem tame_warpedRow (a b : List α) (r : Int) (d : α) (i : Int) (s : Mat α × Bool) :
    Tame (warpedRow a b r d i s) := by
  unfold warpedRow
  tame

macro_rules | `(tactic| tame_leaf) => `(tactic| with_reducible exact tame_warpedRow _ _ _ _ _ _)

theorem tame_warpedBand (r : Int) (a b : List α) (d : α) : Tame (warpedDistanceBand r a b d) := by
  unfold warpedDistanceBand
  tame

macro_rules | `(tactic| tame_leaf) => `(tactic| with_reducible exact tame_warpedBand _ _ _ _)

theorem tame_warped (ratio : α) (a b : List α) (d : α) : Tame (warpedDistance ratio a b d) := by
  unfold warpedDistance
  tame

macro_rules | `(tactic| tame_leaf) => `(tactic| with_reducible exact tame_pairwise _ _ _)
macro_rules | `(tactic| tame_leaf) => `(tactic| with_reducible exact tame_warped _ _ _ _)

theorem tame_front (d : Deque) : Tame d.front := by
  unfold Deque.front
  tame

theorem tame_back (d : Deque) : Tame d.back := by
  unfold Deque.back
  tame

theorem tame_pushBack (d : Deque) (v : Int) : Tame (d.pushBack v) := by
  unfold Deque.pushBack
  tame

theorem tame_popBack (d : Deque) : Tame d.popBack := by
  unfold Deque.popBack
  tame

theorem tame_popFront (d : Deque) : Tame d.popFront := by
  unfold Deque.popFront
  tame

macro_rules | `(tactic| tame_leaf) => `(tactic| with_reducible exact tame_front _)
macro_rules | `(tactic| tame_leaf) => `(tactic| with_reducible exact tame_back _)
macro_rules | `(tactic| tame_leaf) => `(tactic| with_reducible exact tame_pushBack _ _)
macro_rules | `(tactic| tame_leaf) => `(tactic| with_reducible exact tame_popBack _)
macro_rules | `(tactic| tame_leaf) => `(tactic| with_reducible exact tame_popFront _)

theorem tame_popWhile (cmp : α → α → Bool) (t : List α) (ti : α) : ∀ (n : Nat) (d : Deque), Tame (popWhile cmp t ti n d)
  | 0, d => by
    unfold popWhile
    tame
  | n + 1, d => by
    have ih := tame_popWhile cmp t ti n
    unfold popWhile
    repeat' first
      | exact ih _
      | tame_step

macro_rules | `(tactic| tame_leaf) => `(tactic| with_reducible exact tame_popWhile _ _ _ _ _)

theorem tame_lemire1 (t : List α) (r i : Int) (s : LemireState α) : Tame (lemireBody1 t r i s) := by
  unfold lemireBody1
  tame

theorem tame_lemire2 (t : List α) (r i : Int) (s : LemireState α) : Tame (lemireBody2 t r i s) := by
  unfold lemireBody2
  tame

macro_rules | `(tactic| tame_leaf) => `(tactic| with_reducible exact tame_lemire1 _ _ _ _)
macro_rules | `(tactic| tame_leaf) => `(tactic| with_reducible exact tame_lemire2 _ _ _ _)

theorem tame_lemire (t : List α) (n r : Int) (l u : List α) : Tame (lowerUpperLemire t n r l u) := by
  unfold lowerUpperLemire
  tame

macro_rules | `(tactic| tame_leaf) => `(tactic| with_reducible exact tame_lemire _ _ _ _ _)

theorem tame_getKeogh (junk : α) (s : Series α) (r : Int) : Tame (getKeogh junk s r) := by
  unfold getKeogh generateKeoghLU
  tame

macro_rules | `(tactic| tame_leaf) => `(tactic| with_reducible exact tame_getKeogh _ _ _)

theorem tame_keoghSum (b l u : List α) (n : Int) (d : α) : Tame (keoghSum b l u n d) := by
  unfold keoghSum
  tame

macro_rules | `(tactic| tame_leaf) => `(tactic| with_reducible exact tame_keoghSum _ _ _ _ _)

theorem tame_keogh (junk ratio : α) (a b : Series α) (d : α) : Tame (keoghLowerBound junk ratio a b d) := by
  unfold keoghLowerBound
  tame

macro_rules | `(tactic| tame_leaf) => `(tactic| with_reducible exact tame_keogh _ _ _ _ _)

theorem tame_cascade (junk ratio : α) (a b : Series α) (d : α) : Tame (cascadeDistance junk ratio a b d) := by
  unfold cascadeDistance crossKeoghLowerBound
  tame

theorem tame_fn (ratio : α) (n : DistName) (a b : Series α) (d : α) : Tame (n.fn ratio a b d) := by
  cases n <;> unfold DistName.fn <;> tame

macro_rules | `(tactic| tame_leaf) => `(tactic| with_reducible exact tame_cascade _ _ _ _ _)
macro_rules | `(tactic| tame_leaf) => `(tactic| with_reducible exact tame_fn _ _ _ _ _)

theorem tame_buf (ds : Dataset α) : Tame ds.buf := by
  unfold Dataset.buf
  tame

macro_rules | `(tactic| tame_leaf) => `(tactic| with_reducible exact tame_buf _)

theorem tame_getTimeSeries (ds : Dataset α) (i s e : Int) : Tame (ds.getTimeSeries i s e) := by
  unfold Dataset.getTimeSeries
  tame

theorem tame_resolve (ds : Dataset α) (v : View) : Tame (ds.resolve v) := by
  unfold Dataset.resolve
  tame

macro_rules | `(tactic| tame_leaf) => `(tactic| with_reducible exact tame_getTimeSeries _ _ _ _)
macro_rules | `(tactic| tame_leaf) => `(tactic| with_reducible exact tame_resolve _ _)

theorem tame_getDistance (name : String) : Tame (getDistance name) := by
  unfold getDistance
  tame

/-- A distance that never runs out of memory. -/
def TameDist (d : Dist α) : Prop := ∀ a b x, Tame (d a b x)

theorem tame_centroid (ds : Dataset α) (c : Cent α) : Tame (c.resolve ds) := by
  unfold Cent.resolve
  tame

macro_rules | `(tactic| tame_leaf) => `(tactic| with_reducible exact tame_centroid _ _)

theorem tame_nearest (ds : Dataset α) {d : Dist α} (hd : TameDist d) (gs : List (Group α)) (q : Series α) (x : α) :
    Tame (nearest ds d gs q x) := by
  unfold nearest
  refine Throws.forInt ?_ _ _ _
  intro i s
  unfold nearestStep Group.distanceFromCentroid
  repeat' first
    | exact hd _ _ _
    | tame_step

theorem tame_group (ratio : α) (n : DistName) (ds : Dataset α) (th : α) (b : Bool) (ls : LocalSpace α) :
    Tame (ls.generateGroups ds (n.fn ratio) th b) := by
  unfold LocalSpace.generateGroups logProgress placeOne Group.setCentroid Group.addMember
  repeat' first
    | exact tame_nearest _ (fun _ _ _ => tame_fn _ _ _ _ _) _ _ _
    | tame_step

theorem tame_new (ds : Dataset α) (n : Int) : Tame (LocalSpace.new ds n) := by
  unfold LocalSpace.new
  dsimp only
  tame

theorem tame_globalGroup (ratio : α) (ds : Dataset α) (name : String) (th : α) (b : Int → Bool) (gs : GlobalSpace α) :
    Tame (gs.group ratio ds name th b).1 := by
  unfold GlobalSpace.group
  dsimp only
  split
  · rename_i e he
    exact Throws.throw (tame_getDistance _ _ he)
  · exact Throws.ub _
  · split
    · exact Throws.throw (by simp)
    · split
      · exact Throws.ok _
      · rename_i e he
        refine Throws.throw (show e ≠ Exc.badAlloc from ?_)
        revert he
        refine Throws.forInt (Q := (· ≠ Exc.badAlloc)) ?_ _ _ _ e
        repeat' first
          | exact tame_new _ _
          | exact tame_group _ _ _ _ _ _
          | tame_step
      · exact Throws.ub _

/-- Searching groups. -/
theorem tame_bestLoop (ds : Dataset α) (g : Group α) (mm : List Membership) {d : Dist α} (hd : TameDist d) :
    ∀ (n : Nat) (c : Coord) (x : α) (b : Coord) (q : Series α), Tame (g.bestMatchLoop ds mm d n c x b q)
  | 0, c, x, b, q => by
    unfold Group.bestMatchLoop
    tame
  | n + 1, c, x, b, q => by
    have ih := tame_bestLoop ds g mm hd n
    unfold Group.bestMatchLoop
    repeat' first
      | exact ih _ _ _ _
      | exact hd _ _ _
      | tame_step

theorem tame_traverse (ratio : α) (q n : Int) : ∀ (k : Nat) (s : OrderState), Tame (traverseLoop ratio q n k s)
  | 0, s => by
    unfold traverseLoop
    tame
  | k + 1, s => by
    have ih := tame_traverse ratio q n k
    unfold traverseLoop traverseStep
    dsimp only
    repeat' first
      | exact ih _
      | tame_step

theorem tame_searchLoop (ds : Dataset α) {d : Dist α} (hd : TameDist d) : ∀ (is : List Int) (s : SearchState α),
    Tame (searchLoop ds d is s)
  | [], s => by
    unfold searchLoop
    tame
  | i :: is, s => by
    have ih := tame_searchLoop ds hd is
    unfold searchLoop searchStep LocalSpace.getBestGroup
    repeat' first
      | exact ih _
      | exact tame_nearest _ hd _ _ _
      | tame_step

theorem tame_bestMatch (junk ratio : α) (ds : Dataset α) (gs : GlobalSpace α) (q : Series α) :
    Tame (gs.getBestMatch junk ratio ds q) := by
  have hd : TameDist (cascadeDistance junk ratio) := fun _ _ _ => tame_cascade _ _ _ _ _
  unfold GlobalSpace.getBestMatch generateTraverseOrder Group.getBestMatch
  repeat' first
    | exact tame_searchLoop _ hd _ _
    | exact tame_traverse _ _ _ _ _
    | exact tame_bestLoop _ _ _ hd _ _ _ _ _
    | tame_step

end Onex
