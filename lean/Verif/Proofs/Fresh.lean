import Verif.Spec.Current
import Verif.Proofs.Loops

/-!
# Computations that never touch freed memory
-/

namespace Onex
open Spec

set_option linter.unusedSectionVars false

/-- The computation does not use freed memory, and what it returns satisfies `P`. -/
def Safe {β : Type} (P : β → Prop) (r : Res β) : Prop :=
  (∀ b, r = .ok b → P b) ∧ r ≠ .ub "use after free"

theorem Res.bind_assoc {β γ δ : Type} (r : Res β) (f : β → Res γ) (g : γ → Res δ) :
    (r >>= f) >>= g = r >>= fun b => f b >>= g := by
  cases r <;> rfl

section rules
variable {β γ : Type} {P : β → Prop} {Q : γ → Prop}

theorem Safe.bind {r : Res β} {f : β → Res γ} (h : Safe P r) (hf : ∀ b, r = .ok b → P b → Safe Q (f b)) :
    Safe Q (r >>= f) := by
  rcases r with b | e | w
  · exact hf b rfl (h.1 b rfl)
  · exact ⟨fun b hb => by (cases hb), fun hb => by (cases hb)⟩
  · refine ⟨fun b hb => by (cases hb), fun hb => h.2 ?_⟩
    have : Res.ub (α := γ) w = .ub "use after free" := hb
    simp only [Res.ub.injEq] at this
    rw [this]

theorem Safe.ok {b : β} (h : P b) : Safe P (.ok b) := by
  refine ⟨fun b' hb => ?_, fun hb => by cases hb⟩
  cases hb
  exact h

theorem Safe.throw (e : Exc) : Safe P (.throw e) := ⟨fun _ hb => by (cases hb), fun hb => by (cases hb)⟩

theorem Safe.ub {w : String} (h : w ≠ "use after free") : Safe P (.ub w) := by
  refine ⟨fun _ hb => by (cases hb), fun hb => h ?_⟩
  simpa using hb

theorem Safe.mono {P' : β → Prop} {r : Res β} (h : Safe P r) (hp : ∀ b, r = .ok b → P b → P' b) : Safe P' r :=
  ⟨fun b hb => hp b hb (h.1 b hb), h.2⟩

theorem Safe.forIntGo {σ : Type} {I : σ → Prop} {f : Int → σ → Res σ} (h : ∀ i s, I s → Safe I (f i s)) :
    ∀ (k : Nat) (i : Int) (s : σ), I s → Safe I (forIntGo f k i s)
  | 0, _, _, hs => Safe.ok hs
  | k + 1, i, s, hs => by
    unfold Onex.forIntGo
    exact (h i s hs).bind fun b _ hb => Safe.forIntGo h k (i + 1) b hb

theorem Safe.forInt {σ : Type} {I : σ → Prop} {f : Int → σ → Res σ} {s : σ} (hs : I s)
    (h : ∀ i s, I s → Safe I (f i s)) (lo hi : Int) : Safe I (forInt lo hi s f) :=
  Safe.forIntGo h _ lo s hs

end rules

/-- No use of freed memory. -/
abbrev NoUaf {β : Type} (r : Res β) : Prop := Safe (fun _ => True) r

section rules
variable {β γ : Type}

theorem noUaf_bind {r : Res β} {f : β → Res γ} (h : NoUaf r) (hf : ∀ b, NoUaf (f b)) : NoUaf (r >>= f) :=
  Safe.bind h fun b _ _ => hf b

theorem NoUaf.forInt {σ : Type} {f : Int → σ → Res σ} (h : ∀ i s, NoUaf (f i s)) (lo hi : Int) (s : σ) :
    NoUaf (forInt lo hi s f) := Safe.forInt trivial (fun i s _ => h i s) lo hi

theorem NoUaf.forBrkGo {σ : Type} {f : Int → σ → Res (Step σ)} (h : ∀ i s, NoUaf (f i s)) :
    ∀ (k : Nat) (i : Int) (s : σ), NoUaf (forBrkGo f k i s)
  | 0, _, _ => Safe.ok trivial
  | k + 1, i, s => by
    unfold Onex.forBrkGo
    refine noUaf_bind (h i s) fun b => ?_
    rcases b with b | b
    · exact NoUaf.forBrkGo h k (i + 1) b
    · exact Safe.ok trivial

theorem NoUaf.forBrk {σ : Type} {f : Int → σ → Res (Step σ)} (h : ∀ i s, NoUaf (f i s)) (lo hi : Int) (s : σ) :
    NoUaf (forBrk lo hi s f) := NoUaf.forBrkGo h _ lo s

theorem noUaf_vget (l : List β) (i : Int) : NoUaf (vget l i) := by
  unfold vget
  split
  · split
    · exact Safe.ok trivial
    · exact Safe.ub (by decide)
  · exact Safe.ub (by decide)

theorem noUaf_vset (l : List β) (i : Int) (v : β) : NoUaf (vset l i v) := by
  unfold vset
  split
  · exact Safe.ok trivial
  · exact Safe.ub (by decide)

theorem noUaf_mget (l : Mat β) (i j : Int) : NoUaf (mget l i j) := by
  unfold mget
  exact noUaf_bind (noUaf_vget _ _) fun _ => noUaf_vget _ _

theorem noUaf_mset (l : Mat β) (i j : Int) (v : β) : NoUaf (mset l i j v) := by
  unfold mset
  exact noUaf_bind (noUaf_vget _ _) fun _ => noUaf_bind (noUaf_vset _ _ _) fun _ => noUaf_vset _ _ _

end rules

/-- A computation known to be safe. -/
syntax "safe_leaf" : tactic

macro_rules | `(tactic| safe_leaf) => `(tactic| with_reducible exact Safe.ok trivial)
macro_rules | `(tactic| safe_leaf) => `(tactic| exact (Safe.ok trivial : NoUaf (Res.ok _)))
macro_rules | `(tactic| safe_leaf) => `(tactic| with_reducible exact Safe.ub (by decide))
macro_rules | `(tactic| safe_leaf) => `(tactic| with_reducible exact noUaf_vget _ _)
macro_rules | `(tactic| safe_leaf) => `(tactic| with_reducible exact noUaf_vset _ _ _)
macro_rules | `(tactic| safe_leaf) => `(tactic| with_reducible exact noUaf_mget _ _ _)
macro_rules | `(tactic| safe_leaf) => `(tactic| with_reducible exact noUaf_mset _ _ _ _)
macro_rules | `(tactic| safe_leaf) => `(tactic| with_reducible exact Safe.throw _)

/-- One step along the structure of a computation. -/
macro "safe_step" : tactic => `(tactic| first
  | safe_leaf
  | (with_reducible refine noUaf_bind ?_ ?_)
  | (with_reducible refine NoUaf.forInt ?_ _ _ _)
  | (with_reducible refine NoUaf.forBrk ?_ _ _ _)
  | split
  | (with_reducible intro _)
  | dsimp only)

/-- Follow the structure of a computation. -/
macro "safe" : tactic => `(tactic| repeat' safe_step)

variable {α : Type} [DataT α]

theorem noUaf_tsGet (l : List α) (i : Int) : NoUaf (tsGet l i) := by
  unfold tsGet
  safe

macro_rules | `(tactic| safe_leaf) => `(tactic| with_reducible exact noUaf_tsGet _ _)

theorem noUaf_band (ratio : α) (n : Int) : NoUaf (calculateWarpingBandSize ratio n) := by
  unfold calculateWarpingBandSize
  safe

macro_rules | `(tactic| safe_leaf) => `(tactic| with_reducible exact noUaf_band _ _)

theorem noUaf_pairwise (x y : List α) (d : α) : NoUaf (pairwiseDistance x y d) := by
  unfold pairwiseDistance
  safe

theorem noUaf_warpedCell (a b : List α) (r i j : Int) (s : Mat α × α) : NoUaf (warpedCell a b r i j s) := by
  unfold warpedCell
  safe

macro_rules | `(tactic| safe_leaf) => `(tactic| with_reducible exact noUaf_warpedCell _ _ _ _ _ _)

theorem noUaf_warpedRow (a b : List α) (r : Int) (d : α) (i : Int) (s : Mat α × Bool) :
    NoUaf (warpedRow a b r d i s) := by
  unfold warpedRow
  safe

macro_rules | `(tactic| safe_leaf) => `(tactic| with_reducible exact noUaf_warpedRow _ _ _ _ _ _)

theorem noUaf_warpedBand (r : Int) (a b : List α) (d : α) : NoUaf (warpedDistanceBand r a b d) := by
  unfold warpedDistanceBand
  safe

macro_rules | `(tactic| safe_leaf) => `(tactic| with_reducible exact noUaf_warpedBand _ _ _ _)

theorem noUaf_warped (ratio : α) (a b : List α) (d : α) : NoUaf (warpedDistance ratio a b d) := by
  unfold warpedDistance
  safe

macro_rules | `(tactic| safe_leaf) => `(tactic| with_reducible exact noUaf_pairwise _ _ _)
macro_rules | `(tactic| safe_leaf) => `(tactic| with_reducible exact noUaf_warped _ _ _ _)

theorem noUaf_front (d : Deque) : NoUaf d.front := by
  unfold Deque.front
  safe

theorem noUaf_back (d : Deque) : NoUaf d.back := by
  unfold Deque.back
  safe

theorem noUaf_pushBack (d : Deque) (v : Int) : NoUaf (d.pushBack v) := by
  unfold Deque.pushBack
  safe

theorem noUaf_popBack (d : Deque) : NoUaf d.popBack := by
  unfold Deque.popBack
  safe

theorem noUaf_popFront (d : Deque) : NoUaf d.popFront := by
  unfold Deque.popFront
  safe

macro_rules | `(tactic| safe_leaf) => `(tactic| with_reducible exact noUaf_front _)
macro_rules | `(tactic| safe_leaf) => `(tactic| with_reducible exact noUaf_back _)
macro_rules | `(tactic| safe_leaf) => `(tactic| with_reducible exact noUaf_pushBack _ _)
macro_rules | `(tactic| safe_leaf) => `(tactic| with_reducible exact noUaf_popBack _)
macro_rules | `(tactic| safe_leaf) => `(tactic| with_reducible exact noUaf_popFront _)

theorem noUaf_popWhile (cmp : α → α → Bool) (t : List α) (ti : α) : ∀ (n : Nat) (d : Deque), NoUaf (popWhile cmp t ti n d)
  | 0, d => by
    unfold popWhile
    safe
  | n + 1, d => by
    have ih := noUaf_popWhile cmp t ti n
    unfold popWhile
    repeat' first
      | exact ih _
      | safe_step

macro_rules | `(tactic| safe_leaf) => `(tactic| with_reducible exact noUaf_popWhile _ _ _ _ _)

theorem noUaf_lemire1 (t : List α) (r i : Int) (s : LemireState α) : NoUaf (lemireBody1 t r i s) := by
  unfold lemireBody1
  safe

theorem noUaf_lemire2 (t : List α) (r i : Int) (s : LemireState α) : NoUaf (lemireBody2 t r i s) := by
  unfold lemireBody2
  safe

macro_rules | `(tactic| safe_leaf) => `(tactic| with_reducible exact noUaf_lemire1 _ _ _ _)
macro_rules | `(tactic| safe_leaf) => `(tactic| with_reducible exact noUaf_lemire2 _ _ _ _)

theorem noUaf_lemire (t : List α) (n r : Int) (l u : List α) : NoUaf (lowerUpperLemire t n r l u) := by
  unfold lowerUpperLemire
  safe

macro_rules | `(tactic| safe_leaf) => `(tactic| with_reducible exact noUaf_lemire _ _ _ _ _)

theorem noUaf_generate (junk : α) (t : List α) (r : Int) : NoUaf (generateKeoghLU junk t r) := by
  unfold generateKeoghLU
  safe

theorem noUaf_keoghSum (b l u : List α) (n : Int) (d : α) : NoUaf (keoghSum b l u n d) := by
  unfold keoghSum
  safe

macro_rules | `(tactic| safe_leaf) => `(tactic| with_reducible exact noUaf_keoghSum _ _ _ _ _)

/-! ## Envelope caches stay current -/

/-- The cache of a series is current. -/
def SCur (s : Series α) : Prop := CacheCurrent s.vals s.cache

/-- `s'` is `s` up to its cache, and the cache is current. -/
def Recached (s s' : Series α) : Prop := s'.vals = s.vals ∧ SCur s'

theorem SCur.refl {s : Series α} (h : SCur s) : Recached s s := ⟨rfl, h⟩

theorem Recached.trans {s s' s'' : Series α} (h : Recached s s') (h' : Recached s' s'') : Recached s s'' :=
  ⟨h'.1.trans h.1, h'.2⟩

theorem sCur_mk (v : List α) : SCur (Series.mk' v) := by
  intro k hk
  cases hk

theorem safe_getKeogh (junk : α) {s : Series α} (hs : SCur s) (r : Int) :
    Safe (fun x => Recached s x.2) (getKeogh junk s r) := by
  have key : Safe (fun x => Recached s x.2) (do
      let (l, u) ← generateKeoghLU junk s.vals r
      return ((l, u), ({ s with cache := some { band := r, lower := l, upper := u } } : Series α))) := by
    refine (noUaf_generate junk s.vals r).bind ?_
    rintro ⟨l, u⟩ h _
    refine Safe.ok ⟨rfl, ?_⟩
    intro k hk
    simp only [Option.some.injEq] at hk
    subst hk
    exact ⟨junk, h⟩
  unfold getKeogh
  split
  · split
    · exact Safe.ok hs.refl
    · exact key
  · exact key

theorem safe_keogh (junk ratio : α) {a b : Series α} (ha : SCur a) (d : α) :
    Safe (fun x => Recached a x.2) (keoghLowerBound junk ratio a b d) := by
  unfold keoghLowerBound
  repeat' first
    | exact Safe.throw _
    | (refine (noUaf_band _ _).bind fun _ _ _ => ?_)
    | (refine Safe.bind (safe_getKeogh junk ha _) ?_)
    | dsimp only
    | split
  all_goals
    rintro ⟨⟨l, u⟩, a1⟩ _ h1
    dsimp only at h1 ⊢
    refine Safe.bind (safe_getKeogh junk h1.2 _) ?_
    rintro ⟨⟨l', u'⟩, a2⟩ _ h2
    dsimp only at h2 ⊢
    refine (noUaf_keoghSum _ _ _ _ _).bind fun _ _ _ => Safe.ok ?_
    exact h1.trans h2

/-- A distance that keeps caches current and never touches freed memory. -/
def Careful (d : Dist α) : Prop := ∀ a b x, SCur a → SCur b →
  Safe (fun y => Recached a y.2.1 ∧ Recached b y.2.2) (d a b x)

theorem careful_cascade (junk ratio : α) : Careful (cascadeDistance junk ratio) := by
  intro a b x ha hb
  have hc : Safe (fun y => Recached a y.2.1 ∧ Recached b y.2.2) (crossKeoghLowerBound junk ratio a b x) := by
    unfold crossKeoghLowerBound
    refine Safe.bind (safe_keogh junk ratio ha x) ?_
    rintro ⟨lb, a1⟩ _ h1
    dsimp only at h1 ⊢
    split
    · exact Safe.ok ⟨h1, hb.refl⟩
    · refine Safe.bind (safe_keogh junk ratio hb x) ?_
      rintro ⟨lb2, b1⟩ _ h2
      exact Safe.ok ⟨h1, h2⟩
  unfold cascadeDistance
  refine Safe.bind hc ?_
  rintro ⟨lb, a1, b1⟩ _ h
  dsimp only at h ⊢
  split
  · exact Safe.ok h
  · exact (noUaf_warped _ _ _ _).bind fun _ _ _ => Safe.ok h

theorem careful_fn (ratio : α) (n : DistName) : Careful (n.fn ratio) := by
  intro a b x ha hb
  cases n
  · exact (noUaf_pairwise _ _ _).bind fun _ _ _ => Safe.ok ⟨ha.refl, hb.refl⟩
  · exact (noUaf_warped _ _ _ _).bind fun _ _ _ => Safe.ok ⟨ha.refl, hb.refl⟩

/-! ## Groups -/

/-- A group whose representative is current and whose values come from where `K` says. -/
def GCur (ds : Dataset α) (K : CentSrc α → Prop) (g : Group α) : Prop := Current ds g.centroid ∧ K g.centroid.src

variable {ds : Dataset α} {K : CentSrc α → Prop}

theorem current_recache {c : Cent α} {s s' : Series α} (h : c.resolve ds = .ok s) (hr : Recached s s') :
    Current ds { c with cache := s'.cache } := by
  unfold Cent.resolve at h
  refine ⟨{ vals := s.vals, cache := s'.cache }, ?_, ?_⟩
  · unfold Cent.resolve
    dsimp only
    split at h
    · cases h
      rfl
    · obtain ⟨vals, h1, h2⟩ := Res.bind_eq_ok.mp h
      cases h2
      rw [h1]
      rfl
  · have := hr.2
    unfold SCur at this
    rw [hr.1] at this
    exact this

theorem safe_distanceFromCentroid {g : Group α} (hg : GCur ds K g) {q : Series α} (hq : SCur q) {d : Dist α} (hd : Careful d)
    (x : α) : Safe (fun y => GCur ds K y.2.1 ∧ SCur y.2.2) (g.distanceFromCentroid ds q d x) := by
  obtain ⟨⟨s, hs, hc⟩, hk⟩ := hg
  unfold Group.distanceFromCentroid
  rw [hs, Res.bind_ok]
  refine (hd s q x hc hq).bind ?_
  rintro ⟨v, s', q'⟩ _ ⟨h1, h2⟩
  exact Safe.ok ⟨⟨current_recache hs h1, hk⟩, h2.2⟩

/-- Groups that are all current. -/
def GsCur (ds : Dataset α) (K : CentSrc α → Prop) (gs : List (Group α)) : Prop := ∀ g ∈ gs, GCur ds K g

theorem vget_mem {β : Type} {l : List β} {i : Int} {x : β} (h : vget l i = .ok x) : x ∈ l := by
  unfold vget at h
  split at h
  · split at h
    · rename_i y hy
      cases h
      exact List.mem_of_getElem? hy
    · cases h
  · cases h

theorem vset_mem {β : Type} {l l' : List β} {i : Int} {x : β} (h : vset l i x = .ok l') : ∀ y ∈ l', y = x ∨ y ∈ l := by
  unfold vset at h
  split at h
  · cases h
    intro y hy
    rcases List.mem_or_eq_of_mem_set hy with h | h
    · exact Or.inr h
    · exact Or.inl h
  · cases h

theorem gsCur_vset {gs gs' : List (Group α)} (h : GsCur ds K gs) {i : Int} {g : Group α} (hg : GCur ds K g)
    (hs : vset gs i g = .ok gs') : GsCur ds K gs' := by
  intro y hy
  rcases vset_mem hs y hy with rfl | hy
  · exact hg
  · exact h y hy

theorem safe_nearest {d : Dist α} (hd : Careful d) {gs : List (Group α)} (hg : GsCur ds K gs) {q : Series α} (hq : SCur q)
    (x : α) : Safe (fun s => GsCur ds K s.groups ∧ SCur s.query) (nearest ds d gs q x) := by
  unfold nearest
  refine Safe.forInt (I := fun s : NearestState α => GsCur ds K s.groups ∧ SCur s.query) ⟨hg, hq⟩ ?_ _ _
  rintro i s ⟨h1, h2⟩
  unfold nearestStep
  refine (noUaf_vget _ _).bind ?_
  intro g hgv _
  refine (safe_distanceFromCentroid (h1 g (vget_mem hgv)) h2 hd _).bind ?_
  rintro ⟨v, g', q'⟩ _ ⟨h3, h4⟩
  dsimp only at h3 h4 ⊢
  refine (noUaf_vset _ _ _).bind ?_
  intro gs' hgs' _
  have h5 := gsCur_vset h1 h3 hgs'
  split
  · exact Safe.ok ⟨h5, h4⟩
  · exact Safe.ok ⟨h5, h4⟩

theorem view_gen {ds : Dataset α} {i s e : Int} {v : View} (h : ds.getTimeSeries i s e = .ok v) : v.gen = ds.gen := by
  unfold Dataset.getTimeSeries at h
  split at h
  · cases h
  · split at h
    · cases h
      rfl
    · split at h
      · cases h
      · cases h
        rfl

theorem noUaf_getTimeSeries (ds : Dataset α) (i s e : Int) : NoUaf (ds.getTimeSeries i s e) := by
  unfold Dataset.getTimeSeries
  safe

theorem noUaf_buf (ds : Dataset α) : NoUaf ds.buf := by
  unfold Dataset.buf
  safe

theorem noUaf_resolve {v : View} (h : v.gen = ds.gen) : NoUaf (ds.resolve v) := by
  unfold Dataset.resolve
  rw [if_neg (by simp [h])]
  split
  · exact Safe.ok trivial
  · refine noUaf_bind (noUaf_buf ds) fun b => ?_
    safe

theorem safe_placeOne (hK : ∀ v : View, v.gen = ds.gen → K (.view v)) {d : Dist α} (hd : Careful d) (th : α) (idx start : Int)
    {ls : LocalSpace α} (hl : GsCur ds K ls.groups) :
    Safe (fun ls' => GsCur ds K ls'.groups) (placeOne ds d th idx start ls) := by
  unfold placeOne
  refine (noUaf_getTimeSeries ds _ _ _).bind ?_
  intro v hv _
  refine (noUaf_resolve (view_gen hv)).bind ?_
  intro vals hvals _
  refine (safe_nearest hd hl (sCur_mk vals) _).bind ?_
  rintro s _ ⟨h1, h2⟩
  have hrest : ∀ (gs : List (Group α)) (k : Option Int), GsCur ds K gs → Safe (fun ls' : LocalSpace α => GsCur ds K ls'.groups)
      (match k with
        | none => (.ub "uninitialised index" : Res (LocalSpace α))
        | some k => do
          let g ← vget gs k
          let (g, mm) ← g.addMember ls.memberMap idx start
          let groups ← vset gs k g
          return { ls with groups := groups, memberMap := mm }) := by
    intro gs k hgs
    cases k with
    | none => exact Safe.ub (by decide)
    | some k =>
      refine (noUaf_vget _ _).bind ?_
      intro g hg _
      unfold Group.addMember
      simp only [Res.bind_assoc]
      refine (noUaf_vset _ _ _).bind ?_
      intro mm _ _
      simp only [Res.pure_eq, Res.bind_ok]
      refine (noUaf_vset _ _ _).bind ?_
      intro gs' hgs' _
      refine Safe.ok ?_
      exact gsCur_vset (g := { g with count := g.count + 1, last := (idx, start) }) hgs (hgs g (vget_mem hg)) hgs'
  dsimp only
  split
  · have e : Group.setCentroid ds (Group.new (len s.groups) ls.length ls.subCount : Group α) idx start =
        .ok { (Group.new (len s.groups) ls.length ls.subCount : Group α) with centroid := { src := .view v, cache := none } } := by
      unfold Group.setCentroid
      have : (Group.new (len s.groups) ls.length ls.subCount : Group α).memberLength = ls.length := rfl
      rw [this, hv]
      rfl
    rw [e]
    refine hrest (s.groups ++ [_]) (some (len s.groups)) ?_
    intro g hg
    rcases List.mem_append.mp hg with hg | hg
    · exact h1 g hg
    · rw [List.mem_singleton] at hg
      subst hg
      refine ⟨⟨{ vals := vals, cache := none }, ?_, ?_⟩, hK v (view_gen hv)⟩
      · unfold Cent.resolve
        dsimp only
        rw [hvals]
        rfl
      · intro k hk
        cases hk
  · exact hrest _ _ h1

theorem safe_generateGroups (hK : ∀ v : View, v.gen = ds.gen → K (.view v)) {d : Dist α} (hd : Careful d) (th : α) (b : Bool)
    {ls : LocalSpace α} (hl : GsCur ds K ls.groups) :
    Safe (fun ls' => GsCur ds K ls'.groups) (ls.generateGroups ds d th b) := by
  unfold LocalSpace.generateGroups
  refine Safe.forInt (I := fun ls : LocalSpace α => GsCur ds K ls.groups) hl ?_ _ _
  intro i ls1 h1
  refine Safe.forInt (I := fun ls : LocalSpace α => GsCur ds K ls.groups) h1 ?_ _ _
  intro j ls2 h2
  refine Safe.bind (P := fun _ => True) ?_ fun _ _ _ => safe_placeOne hK hd th j i h2
  unfold logProgress
  split
  · exact Safe.ub (by decide)
  · exact Safe.ok trivial

/-- Every group of every length is current. -/
def LsCur (ds : Dataset α) (K : CentSrc α → Prop) (locals : List (Option (LocalSpace α))) : Prop :=
  ∀ ls, some ls ∈ locals → GsCur ds K ls.groups

theorem lsCur_vset {l l' : List (Option (LocalSpace α))} (h : LsCur ds K l) {i : Int} {ls : LocalSpace α}
    (hg : GsCur ds K ls.groups) (hs : vset l i (some ls) = .ok l') : LsCur ds K l' := by
  intro y hy
  rcases vset_mem hs _ hy with e | hy
  · cases e
    exact hg
  · exact h y hy

theorem lsCur_none (n : Nat) : LsCur ds K (List.replicate n none) := by
  intro ls h
  have := List.eq_of_mem_replicate h
  cases this

theorem safe_new (n : Int) : Safe (fun ls => ls.groups = []) (LocalSpace.new ds n) := by
  unfold LocalSpace.new
  dsimp only
  split
  · exact Safe.throw _
  · exact Safe.ok rfl

/-- `Safe` for a run that also leaves a group space behind. -/
theorem safe_group (hK : ∀ v : View, v.gen = ds.gen → K (.view v)) (ratio : α) (name : String) (th : α) (b : Int → Bool)
    (gs : GlobalSpace α) :
    LsCur ds K (gs.group ratio ds name th b).2.locals ∧ (gs.group ratio ds name th b).1 ≠ .ub "use after free" := by
  have hnil : LsCur ds K [] := by
    intro ls h
    cases h
  unfold GlobalSpace.group
  dsimp only
  cases hn : getDistance name with
  | throw e => exact ⟨hnil, by simp⟩
  | ub w =>
    exfalso
    unfold getDistance at hn
    split at hn
    · cases hn
    · split at hn <;> cases hn
  | ok dn =>
    dsimp only
    split
    · exact ⟨hnil, by simp⟩
    · have h := Safe.forInt (I := fun s : List (Option (LocalSpace α)) × Int => LsCur ds K s.1)
        (s := (List.replicate (ds.itemLength + 1).toNat none, 0))
        (f := fun i s => do
          let ls ← LocalSpace.new ds i
          let ls ← ls.generateGroups ds (dn.fn ratio) th (b i)
          let locals ← vset s.1 i (some ls)
          return (locals, s.2 + ls.getNumberOfGroups)) (lsCur_none _) (by
          intro i s hs
          refine (safe_new i).bind ?_
          intro ls _ hls
          refine (safe_generateGroups hK (careful_fn ratio dn) th (b i) (ls := ls) (by rw [hls]; intro g hg; cases hg)).bind ?_
          intro ls' _ hls'
          refine (noUaf_vset _ _ _).bind ?_
          intro l' hl' _
          exact Safe.ok (lsCur_vset hs hls' hl')) 2 (ds.itemLength + 1)
      revert h
      generalize forInt 2 (ds.itemLength + 1) (List.replicate (ds.itemLength + 1).toNat none, (0 : Int)) _ = run
      intro h
      rcases run with ⟨l, n⟩ | e | w
      · exact ⟨h.1 _ rfl, by simp⟩
      · exact ⟨hnil, by simp⟩
      · refine ⟨hnil, ?_⟩
        have := h.2
        simpa using this

/-! ## Searching -/

theorem safe_searchLoop {d : Dist α} (hd : Careful d) : ∀ (is : List Int) (s : SearchState α), LsCur ds K s.locals → SCur s.query →
    Safe (fun s' => LsCur ds K s'.locals ∧ SCur s'.query) (searchLoop ds d is s)
  | [], s, h1, h2 => by
    unfold searchLoop
    exact Safe.ok ⟨h1, h2⟩
  | i :: is, s, h1, h2 => by
    unfold searchLoop
    refine Safe.bind (P := fun s' => LsCur ds K s'.locals ∧ SCur s'.query) ?_ fun s' _ h => safe_searchLoop hd is s' h.1 h.2
    unfold searchStep
    refine (noUaf_vget _ _).bind ?_
    intro o ho _
    cases o with
    | none => exact Safe.ub (by decide)
    | some ls =>
      dsimp only
      unfold LocalSpace.getBestGroup
      simp only [Res.bind_assoc]
      refine (safe_nearest hd (h1 ls (vget_mem ho)) h2 _).bind ?_
      rintro n _ ⟨h3, h4⟩
      simp only [Res.pure_eq, Res.bind_ok]
      refine (noUaf_vset _ _ _).bind ?_
      intro l' hl' _
      have h5 := lsCur_vset (ls := { ls with groups := n.groups }) h1 h3 hl'
      split
      · exact Safe.ok ⟨h5, h4⟩
      · exact Safe.ok ⟨h5, h4⟩

theorem noUaf_traverse (ratio : α) (q n : Int) : ∀ (k : Nat) (s : OrderState), NoUaf (traverseLoop ratio q n k s)
  | 0, s => by
    unfold traverseLoop
    safe
  | k + 1, s => by
    have ih := noUaf_traverse ratio q n k
    unfold traverseLoop traverseStep
    dsimp only
    repeat' first
      | exact ih _
      | safe_step

theorem noUaf_bestLoop (ds : Dataset α) (g : Group α) (mm : List Membership) {d : Dist α} (hd : Careful d) :
    ∀ (n : Nat) (c : Coord) (x : α) (b : Coord) (q : Series α), SCur q → NoUaf (g.bestMatchLoop ds mm d n c x b q)
  | 0, c, x, b, q, _ => by
    unfold Group.bestMatchLoop
    safe
  | n + 1, c, x, b, q, hq => by
    unfold Group.bestMatchLoop
    split
    · exact Safe.ok trivial
    · dsimp only
      refine (noUaf_getTimeSeries ds _ _ _).bind ?_
      intro v hv _
      refine (noUaf_resolve (view_gen hv)).bind ?_
      intro vals _ _
      refine (hd q _ x hq (sCur_mk vals)).bind ?_
      rintro ⟨y, q', _⟩ _ ⟨h1, _⟩
      dsimp only at h1 ⊢
      refine (noUaf_vget _ _).bind ?_
      intro e _ _
      exact noUaf_bestLoop ds g mm hd n _ _ _ _ h1.2

theorem safe_bestMatch (junk ratio : α) {gs : GlobalSpace α} (hg : LsCur ds K gs.locals) {q : Series α} (hq : SCur q) :
    Safe (fun y => LsCur ds K y.2.locals) (gs.getBestMatch junk ratio ds q) := by
  unfold GlobalSpace.getBestMatch
  split
  · exact Safe.throw _
  · dsimp only
    refine Safe.bind (P := fun _ => True) ?_ ?_
    · unfold generateTraverseOrder
      exact noUaf_bind (noUaf_traverse _ _ _ _ _) fun _ => Safe.ok trivial
    intro order _ _
    refine (safe_searchLoop (careful_cascade junk ratio) order
      { locals := gs.locals, query := q, best := DataT.inf, bestGroup := none } hg hq).bind ?_
    rintro s _ ⟨h1, h2⟩
    split
    · exact Safe.ub (by decide)
    · refine (noUaf_vget _ _).bind ?_
      intro o _ _
      cases o with
      | none => exact Safe.ub (by decide)
      | some ls =>
        dsimp only
        refine (noUaf_vget _ _).bind ?_
        intro g _ _
        unfold Group.getBestMatch
        simp only [Res.bind_assoc]
        refine (noUaf_bestLoop ds g _ (careful_cascade junk ratio) _ _ _ _ _ h2).bind ?_
        rintro ⟨b, m, q'⟩ _ _
        dsimp only
        refine (noUaf_getTimeSeries ds _ _ _).bind ?_
        intro v _ _
        exact Safe.ok h1

/-! ## Loading and saving groups -/

theorem current_own (vals : List α) : Current ds { src := .own vals, cache := none } :=
  ⟨_, rfl, fun k hk => by cases hk⟩

theorem safe_loadGroup (io : NumIO α) (hK : ∀ v, K (.own v)) {g : Group α} (hc : g.centroid.cache = none)
    (mm : List Membership) (s : Stream) : Safe (fun x => GCur ds K x.1) (g.loadGroup io mm s) := by
  unfold Group.loadGroup
  dsimp only
  split
  · exact Safe.ub (by decide)
  · refine Safe.bind (Safe.forInt (I := fun st : LoadState α => GCur ds K st.group) ?_ ?_ _ _) ?_
    · refine ⟨?_, hK _⟩
      dsimp only
      rw [hc]
      exact current_own _
    · intro i st hst
      split
      · unfold Group.addMember
        simp only [Res.bind_assoc]
        refine (noUaf_vset _ _ _).bind ?_
        intro mm _ _
        exact Safe.ok hst
      · exact Safe.ub (by decide)
    · intro st _ hst
      exact Safe.ok hst

theorem safe_localLoad (io : NumIO α) (hK : ∀ v, K (.own v)) (ls : LocalSpace α) (s : Stream) :
    Safe (fun x => GsCur ds K x.2.1.groups) (ls.loadGroups io s) := by
  unfold LocalSpace.loadGroups
  dsimp only
  split
  · exact Safe.ub (by decide)
  · refine Safe.bind (Safe.forInt (I := fun st : LocalSpace α × Stream => GsCur ds K st.1.groups) ?_ ?_ _ _) ?_
    · intro g hg
      cases hg
    · intro i st hst
      refine (safe_loadGroup io hK (ds := ds) (g := Group.new i st.1.length st.1.subCount) rfl st.1.memberMap st.2).bind ?_
      rintro ⟨g, mm, s'⟩ _ hg
      refine Safe.ok ?_
      intro g' hg'
      rcases List.mem_append.mp hg' with h | h
      · exact hst g' h
      · rw [List.mem_singleton] at h
        subst h
        exact hg
    · rintro ⟨ls', s'⟩ _ h
      exact Safe.ok h

theorem safe_load (io : NumIO α) (hK : ∀ v, K (.own v)) (gs : GlobalSpace α) (s : Stream) :
    LsCur ds K (gs.loadGroups io ds s).2.locals ∧ (gs.loadGroups io ds s).1 ≠ .ub "use after free" := by
  have hnil : LsCur ds K [] := by
    intro ls h
    cases h
  unfold GlobalSpace.loadGroups
  dsimp only
  split
  · exact ⟨hnil, by simp⟩
  · rename_i w hn
    exfalso
    unfold getDistance at hn
    split at hn
    · cases hn
    · split at hn <;> cases hn
  · split
    · exact ⟨hnil, by simp⟩
    · split
      · rename_i lo hi _ _
        have h := Safe.forInt (I := fun st : Int × List (Option (LocalSpace α)) × Stream => LsCur ds K st.2.1)
          (s := (0, List.replicate (ds.itemLength + 1).toNat none, (readName (readInt (readInt s).2).2).2))
          (f := fun i st => do
            let ls ← LocalSpace.new ds i
            let (n, ls, s) ← ls.loadGroups io st.2.2
            let locals ← vset st.2.1 i (some ls)
            return (st.1 + n, locals, s)) (lsCur_none _) (by
            intro i st hst
            refine (safe_new i).bind ?_
            intro ls _ _
            refine (safe_localLoad io hK (ds := ds) ls st.2.2).bind ?_
            rintro ⟨n, ls', s'⟩ _ hls
            refine (noUaf_vset _ _ _).bind ?_
            intro l' hl' _
            exact Safe.ok (lsCur_vset hst hls hl')) (toUnsigned lo) (toUnsigned hi)
        revert h
        generalize forInt (toUnsigned lo) (toUnsigned hi) _ _ = run
        intro h
        rcases run with ⟨n, l, s'⟩ | e | w
        · exact ⟨h.1 _ rfl, by simp⟩
        · exact ⟨hnil, by simp⟩
        · refine ⟨hnil, ?_⟩
          have := h.2
          simpa using this
      · exact ⟨hnil, by simp⟩

theorem noUaf_saveMembers (g : Group α) (mm : List Membership) : ∀ (n : Nat) (c : Coord), NoUaf (saveMembersLoop g mm n c)
  | 0, c => by
    unfold saveMembersLoop
    safe
  | n + 1, c => by
    have ih := noUaf_saveMembers g mm n
    unfold saveMembersLoop
    repeat' first
      | exact ih _
      | safe_step

theorem noUaf_saveGroupList (io : NumIO α) (mm : List Membership) (b : Bool) : ∀ gs : List (Group α), GsCur ds K gs →
    NoUaf (saveGroupList io ds mm b gs)
  | [], _ => by
    unfold saveGroupList
    safe
  | g :: gs, h => by
    unfold saveGroupList
    have ih := noUaf_saveGroupList io mm b gs (fun g' hg' => h g' (List.mem_cons_of_mem _ hg'))
    obtain ⟨⟨s, hs, _⟩, _⟩ := h g (List.mem_cons_self ..)
    unfold Group.saveGroup
    rw [hs]
    repeat' first
      | exact ih
      | exact noUaf_saveMembers _ _ _ _
      | safe_step

theorem noUaf_saveLocals (io : NumIO α) (b : Bool) : ∀ l : List (Option (LocalSpace α)), LsCur ds K l →
    NoUaf (saveLocals io ds b l)
  | [], _ => by
    unfold saveLocals
    safe
  | none :: _, _ => by
    unfold saveLocals
    safe
  | some ls :: rest, h => by
    unfold saveLocals
    have ih := noUaf_saveLocals io b rest (fun ls' h' => h ls' (List.mem_cons_of_mem _ h'))
    have hg := h ls (List.mem_cons_self ..)
    unfold LocalSpace.saveGroups
    repeat' first
      | exact ih
      | exact noUaf_saveGroupList io _ b _ hg
      | safe_step

end Onex
