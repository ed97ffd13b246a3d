import Verif.Model.Ucr
import Verif.Proofs.Basic
import Mathlib.Data.List.Forall2

/-!
# The model is parametric in the number type

If two number types are related and the operations preserve the relation, then so do the functions of the model. Used to run
the model on a number type that computes (`Verif.Proofs.RunRat`) and to carry the result over to the reals.
-/

namespace Onex

open DataT

/-- The operations of the two number types preserve `R`. -/
class Logical {α β : Type} [DataT α] [DataT β] (R : α → β → Prop) : Prop where
  ofInt : ∀ z, R (DataT.ofInt z) (DataT.ofInt z)
  add : ∀ {a a' b b'}, R a a' → R b b' → R (DataT.add a b) (DataT.add a' b')
  sub : ∀ {a a' b b'}, R a a' → R b b' → R (DataT.sub a b) (DataT.sub a' b')
  mul : ∀ {a a' b b'}, R a a' → R b b' → R (DataT.mul a b) (DataT.mul a' b')
  div : ∀ {a a' b b'}, R a a' → R b b' → R (DataT.div a b) (DataT.div a' b')
  sqrt : ∀ {a a'}, R a a' → R (DataT.sqrt a) (DataT.sqrt a')
  lt : ∀ {a a' b b'}, R a a' → R b b' → DataT.lt a b = DataT.lt a' b'
  le : ∀ {a a' b b'}, R a a' → R b b' → DataT.le a b = DataT.le a' b'

/-- Related outcomes. -/
inductive RR {α β : Type} (R : α → β → Prop) : Res α → Res β → Prop where
  | ok {a b} : R a b → RR R (.ok a) (.ok b)
  | throw (e : Exc) : RR R (.throw e) (.throw e)
  | ub (w : String) : RR R (.ub w) (.ub w)

inductive RStep {α β : Type} (R : α → β → Prop) : Step α → Step β → Prop where
  | next {a b} : R a b → RStep R (.next a) (.next b)
  | brk {a b} : R a b → RStep R (.brk a) (.brk b)

theorem RR.pure {α β : Type} {R : α → β → Prop} {a b} (h : R a b) : RR R (Pure.pure a) (Pure.pure b) := .ok h

theorem RR.refl {α : Type} (x : Res α) : RR Eq x x := by
  cases x
  · exact .ok rfl
  · exact .throw _
  · exact .ub _

theorem RR.bind {α β γ δ : Type} {R : α → β → Prop} {S : γ → δ → Prop} {x : Res α} {y : Res β} {f : α → Res γ} {g : β → Res δ}
    (h : RR R x y) (hf : ∀ a b, R a b → RR S (f a) (g b)) : RR S (x >>= f) (y >>= g) := by
  cases h with
  | ok h => exact hf _ _ h
  | throw e => exact .throw e
  | ub w => exact .ub w

/-- Binding something that does not involve numbers. -/
theorem RR.bind_same {α γ δ : Type} {S : γ → δ → Prop} {x : Res α} {f : α → Res γ} {g : α → Res δ}
    (hf : ∀ a, RR S (f a) (g a)) : RR S (x >>= f) (x >>= g) :=
  RR.bind (RR.refl x) (by rintro a _ rfl; exact hf a)

theorem RR.ite {α β : Type} {R : α → β → Prop} {p q : Prop} [Decidable p] [Decidable q] {a b : Res α} {a' b' : Res β} (h : p ↔ q)
    (h1 : RR R a a') (h2 : RR R b b') : RR R (if p then a else b) (if q then a' else b') := by
  by_cases hp : p
  · rw [if_pos hp, if_pos (h.mp hp)]; exact h1
  · rw [if_neg hp, if_neg (fun hq => hp (h.mpr hq))]; exact h2

theorem RR.forIntGo {σ τ : Type} {S : σ → τ → Prop} {f : Int → σ → Res σ} {g : Int → τ → Res τ}
    (h : ∀ i s t, S s t → RR S (f i s) (g i t)) : ∀ (k : ℕ) (i : Int) {s : σ} {t : τ}, S s t → RR S (Onex.forIntGo f k i s) (Onex.forIntGo g k i t)
  | 0, _, _, _, hs => .ok hs
  | k + 1, i, _, _, hs => RR.bind (h i _ _ hs) fun _ _ hs' => RR.forIntGo h k (i + 1) hs'

theorem RR.forInt {σ τ : Type} {S : σ → τ → Prop} {f : Int → σ → Res σ} {g : Int → τ → Res τ} {lo hi : Int} {s : σ} {t : τ} (hs : S s t)
    (h : ∀ i s t, S s t → RR S (f i s) (g i t)) : RR S (Onex.forInt lo hi s f) (Onex.forInt lo hi t g) :=
  RR.forIntGo h _ _ hs

theorem RR.forBrkGo {σ τ : Type} {S : σ → τ → Prop} {f : Int → σ → Res (Step σ)} {g : Int → τ → Res (Step τ)}
    (h : ∀ i s t, S s t → RR (RStep S) (f i s) (g i t)) :
    ∀ (k : ℕ) (i : Int) {s : σ} {t : τ}, S s t → RR S (Onex.forBrkGo f k i s) (Onex.forBrkGo g k i t)
  | 0, _, _, _, hs => .ok hs
  | k + 1, i, _, _, hs => RR.bind (h i _ _ hs) fun _ _ hs' => by
    cases hs' with
    | next hs' => exact RR.forBrkGo h k (i + 1) hs'
    | brk hs' => exact .ok hs'

theorem RR.forBrk {σ τ : Type} {S : σ → τ → Prop} {f : Int → σ → Res (Step σ)} {g : Int → τ → Res (Step τ)} {lo hi : Int} {s : σ} {t : τ}
    (hs : S s t) (h : ∀ i s t, S s t → RR (RStep S) (f i s) (g i t)) : RR S (Onex.forBrk lo hi s f) (Onex.forBrk lo hi t g) :=
  RR.forBrkGo h _ _ hs

section Lists

variable {α β : Type} {R : α → β → Prop}

theorem RR.vget {l : List α} {l' : List β} (h : List.Forall₂ R l l') (i : Int) : RR R (Onex.vget l i) (Onex.vget l' i) := by
  unfold Onex.vget
  refine RR.ite Iff.rfl ?_ (.ub _)
  generalize i.toNat = n
  induction h generalizing n with
  | nil => exact .ub _
  | cons hd _ ih =>
    cases n with
    | zero => exact .ok hd
    | succ n => simpa using ih n

theorem forall₂_set {l : List α} {l' : List β} (h : List.Forall₂ R l l') {v : α} {v' : β} (hv : R v v') (n : ℕ) :
    List.Forall₂ R (l.set n v) (l'.set n v') := by
  induction h generalizing n with
  | nil => exact .nil
  | cons hd tl ih =>
    cases n with
    | zero => exact .cons hv tl
    | succ n => exact .cons hd (ih n)

theorem RR.vset {l : List α} {l' : List β} (h : List.Forall₂ R l l') {v : α} {v' : β} (hv : R v v') (i : Int) :
    RR (List.Forall₂ R) (Onex.vset l i v) (Onex.vset l' i v') := by
  unfold Onex.vset
  refine RR.ite ?_ (.ok (forall₂_set h hv _)) (.ub _)
  unfold len
  rw [h.length_eq]

theorem forall₂_replicate {a : α} {b : β} (h : R a b) : ∀ n, List.Forall₂ R (List.replicate n a) (List.replicate n b)
  | 0 => .nil
  | n + 1 => .cons h (forall₂_replicate h n)

end Lists

variable {α β : Type} [DataT α] [DataT β] {R : α → β → Prop} [H : Logical R]

theorem Logical.iff_lt {a b : α} {a' b' : β} (ha : R a a') (hb : R b b') : (DataT.lt a b = true) ↔ (DataT.lt a' b' = true) := by
  rw [H.lt ha hb]

theorem Logical.iff_gt {a b : α} {a' b' : β} (ha : R a a') (hb : R b b') : (DataT.gt a b = true) ↔ (DataT.gt a' b' = true) :=
  Logical.iff_lt hb ha

theorem Logical.iff_ge {a b : α} {a' b' : β} (ha : R a a') (hb : R b b') : (DataT.ge a b = true) ↔ (DataT.ge a' b' = true) := by
  unfold DataT.ge
  rw [H.le hb ha]

omit [DataT α] [DataT β] H in
theorem Logical.ite {a b : α} {a' b' : β} {p q : Prop} [Decidable p] [Decidable q] (h : p ↔ q) (ha : R a a') (hb : R b b') :
    R (if p then a else b) (if q then a' else b') := by
  by_cases hp : p
  · rw [if_pos hp, if_pos (h.mp hp)]; exact ha
  · rw [if_neg hp, if_neg (fun hq => hp (h.mpr hq))]; exact hb

theorem Logical.minM {a b : α} {a' b' : β} (ha : R a a') (hb : R b b') : R (Onex.minM a b) (Onex.minM a' b') :=
  Logical.ite (Logical.iff_lt ha hb) ha hb

theorem Logical.distM {a b : α} {a' b' : β} (ha : R a a') (hb : R b b') : R (Onex.distM a b) (Onex.distM a' b') :=
  H.mul (H.sub ha hb) (H.sub ha hb)

theorem Logical.zero : R (DataT.zero : α) (DataT.zero : β) := H.ofInt 0

/-- Closes goals `R x x'` and `p ↔ q` about arithmetic. -/
macro "arith" R:ident : tactic => `(tactic| repeat' (first
  | assumption | exact Iff.rfl | exact Logical.zero | exact Logical.ofInt _ | apply Logical.minM | apply Logical.distM | apply Logical.iff_lt (R := $R)
  | apply Logical.iff_gt (R := $R) | apply Logical.iff_ge (R := $R) | apply Logical.add | apply Logical.sub | apply Logical.mul | apply Logical.div
  | apply Logical.sqrt | apply Logical.ite))

theorem RR.zAt {t : List α} {t' : List β} {μ σ : α} {μ' σ' : β} (ht : List.Forall₂ R t t') (hμ : R μ μ') (hσ : R σ σ') (k : Int) :
    RR R (Onex.zAt t μ σ k) (Onex.zAt t' μ' σ' k) :=
  RR.bind (RR.vget ht k) fun _ _ hx => .ok (by arith R)

theorem RR.lbKim {t q : List α} {t' q' : List β} {μ σ b : α} {μ' σ' b' : β} (ht : List.Forall₂ R t t') (hq : List.Forall₂ R q q') (hμ : R μ μ') (hσ : R σ σ')
    (hb : R b b') (j n : Int) : RR R (Onex.lbKim t q j n μ σ b) (Onex.lbKim t' q' j n μ' σ' b') := by
  unfold Onex.lbKim
  repeat' (first
    | (refine RR.bind (RR.zAt ht hμ hσ _) ?_; intro _ _ _)
    | (refine RR.bind (RR.vget hq _) ?_; intro _ _ _)
    | refine RR.ite ?_ ?_ ?_
    | refine RR.pure ?_)
  all_goals arith R

omit [DataT α] [DataT β] H in
theorem RR.popWhile {f : α → α → Bool} {g : β → β → Bool} (hc : ∀ {a b a' b'}, R a a' → R b b' → f a b = g a' b') {t : List α} {t' : List β}
    (ht : List.Forall₂ R t t') {x : α} {x' : β} (hx : R x x') : ∀ (k : ℕ) (d : Deque), RR Eq (Onex.popWhile f t x k d) (Onex.popWhile g t' x' k d)
  | 0, d => RR.refl _
  | k + 1, d => by
    unfold Onex.popWhile
    refine RR.ite Iff.rfl (.ok rfl) ?_
    refine RR.bind_same fun b => ?_
    refine RR.bind (RR.vget ht b) fun y y' hy => ?_
    refine RR.ite (by rw [hc hx hy]) ?_ (.ok rfl)
    exact RR.bind_same fun d => RR.popWhile hc ht hx k d

/-- Related states of the envelope loops. -/
structure RLem (R : α → β → Prop) (s : LemireState α) (s' : LemireState β) : Prop where
  du : s.du = s'.du
  dl : s.dl = s'.dl
  l : List.Forall₂ R s.l s'.l
  u : List.Forall₂ R s.u s'.u

/-- The end of `lemireBody1`. -/
def body1End (r i : Int) (s : LemireState α) : Res (LemireState α) := do
  let du ← s.du.pushBack i
  let dl ← s.dl.pushBack i
  let s := { s with du := du, dl := dl }
  let uf ← s.du.front
  if i = 2 * r + 1 + uf then do
    let du ← s.du.popFront
    pure { s with du := du }
  else do
    let lf ← s.dl.front
    if i = 2 * r + 1 + lf then do
      let dl ← s.dl.popFront
      pure { s with dl := dl }
    else pure s

/-- `lemireBody1` after its first statement. -/
def body1Rest (t : List α) (r i : Int) (s : LemireState α) : Res (LemireState α) := do
  let ti ← vget t i
  let tp ← vget t (i - 1)
  if DataT.gt ti tp then do
    let du ← s.du.popBack
    let du ← popWhile DataT.gt t ti du.size.toNat du
    body1End r i { s with du := du }
  else do
    let dl ← s.dl.popBack
    let dl ← popWhile DataT.lt t ti dl.size.toNat dl
    body1End r i { s with dl := dl }

omit H in
theorem RR.lemireBody1 {T S : α → β → Prop} (hlt : ∀ {a a' b b'}, T a a' → T b b' → DataT.lt a b = DataT.lt a' b') (hTS : ∀ a b, T a b → S a b) {t : List α} {t' : List β} (ht : List.Forall₂ T t t') (r i : Int) {s : LemireState α} {s' : LemireState β} (hs : RLem S s s') :
    RR (RLem S) (Onex.lemireBody1 t r i s) (Onex.lemireBody1 t' r i s') := by
  obtain ⟨du, dl, l, u⟩ := s
  obtain ⟨du', dl', l', u'⟩ := s'
  obtain ⟨e1, e2, hl, hu⟩ := hs
  dsimp only at e1 e2 hl hu
  subst e1 e2
  unfold Onex.lemireBody1
  dsimp only
  have fin : ∀ {s : LemireState α} {s' : LemireState β}, RLem S s s' → RR (RLem S) (body1End r i s) (body1End r i s') := by
    rintro ⟨du, dl, l, u⟩ ⟨du', dl', l', u'⟩ ⟨e1, e2, hl, hu⟩
    dsimp only at e1 e2 hl hu
    subst e1 e2
    refine RR.bind_same fun d1 => ?_
    refine RR.bind_same fun d2 => ?_
    refine RR.bind_same fun uf => ?_
    refine RR.ite Iff.rfl (RR.bind_same fun d => .ok ⟨rfl, rfl, hl, hu⟩) ?_
    refine RR.bind_same fun uf => ?_
    exact RR.ite Iff.rfl (RR.bind_same fun d => .ok ⟨rfl, rfl, hl, hu⟩) (.ok ⟨rfl, rfl, hl, hu⟩)
  have rest : ∀ (s : LemireState α) (s' : LemireState β), RLem S s s' → RR (RLem S) (body1Rest t r i s) (body1Rest t' r i s') := by
    rintro ⟨du, dl, l, u⟩ ⟨du', dl', l', u'⟩ ⟨e1, e2, hl, hu⟩
    dsimp only at e1 e2 hl hu
    subst e1 e2
    unfold body1Rest
    refine RR.bind (RR.vget ht _) fun _ _ h1 => ?_
    refine RR.bind (RR.vget ht _) fun _ _ h2 => ?_
    refine RR.ite (by unfold DataT.gt; rw [hlt h2 h1]) ?_ ?_
    · refine RR.bind_same fun d => ?_
      refine RR.bind (RR.popWhile (f := DataT.gt) (g := DataT.gt) (fun ha hb => hlt hb ha) ht h1 _ d) ?_
      rintro d _ rfl
      exact fin ⟨rfl, rfl, hl, hu⟩
    · refine RR.bind_same fun d => ?_
      refine RR.bind (RR.popWhile (f := DataT.lt) (g := DataT.lt) (fun ha hb => hlt ha hb) ht h1 _ d) ?_
      rintro d _ rfl
      exact fin ⟨rfl, rfl, hl, hu⟩
  refine RR.ite Iff.rfl ?_ ?_
  · refine RR.bind_same fun uf => ?_
    refine RR.bind (RR.vget ht uf) fun _ _ h1 => ?_
    refine RR.bind (RR.vset hu (hTS _ _ h1) _) fun _ _ hu => ?_
    refine RR.bind_same fun lf => ?_
    refine RR.bind (RR.vget ht lf) fun _ _ h1 => ?_
    refine RR.bind (RR.vset hl (hTS _ _ h1) _) fun _ _ hl => ?_
    refine RR.bind (R := RLem S) (.pure ⟨rfl, rfl, hl, hu⟩) ?_
    exact rest
  · exact RR.bind (R := RLem S) (.pure ⟨rfl, rfl, hl, hu⟩) rest

omit [DataT α] [DataT β] H in
theorem RR.lemireBody2 {T S : α → β → Prop} (hTS : ∀ a b, T a b → S a b) {t : List α} {t' : List β} (ht : List.Forall₂ T t t') (r i : Int) {s : LemireState α} {s' : LemireState β} (hs : RLem S s s') :
    RR (RLem S) (Onex.lemireBody2 t r i s) (Onex.lemireBody2 t' r i s') := by
  obtain ⟨du, dl, l, u⟩ := s
  obtain ⟨du', dl', l', u'⟩ := s'
  obtain ⟨e1, e2, hl, hu⟩ := hs
  dsimp only at e1 e2 hl hu
  subst e1 e2
  unfold Onex.lemireBody2
  refine RR.bind_same fun uf => ?_
  refine RR.bind (RR.vget ht uf) fun _ _ h1 => ?_
  refine RR.bind (RR.vset hu (hTS _ _ h1) _) fun _ _ hu => ?_
  refine RR.bind_same fun lf => ?_
  refine RR.bind (RR.vget ht lf) fun _ _ h1 => ?_
  refine RR.bind (RR.vset hl (hTS _ _ h1) _) fun _ _ hl => ?_
  dsimp only
  refine RR.ite Iff.rfl (RR.bind_same fun d => ?_) ?_
  all_goals exact RR.ite Iff.rfl (RR.bind_same fun d => .ok ⟨rfl, rfl, hl, hu⟩) (.ok ⟨rfl, rfl, hl, hu⟩)

/-- Related pairs. -/
def RP {α β γ δ : Type} (R : α → β → Prop) (S : γ → δ → Prop) (p : α × γ) (q : β × δ) : Prop := R p.1 q.1 ∧ S p.2 q.2

omit H in
/-- The arrays may be related more loosely than the values: values are only copied into them. -/
theorem RR.lemireOf {T S : α → β → Prop} (hlt : ∀ {a a' b b'}, T a a' → T b b' → DataT.lt a b = DataT.lt a' b') (hTS : ∀ a b, T a b → S a b) {t l u : List α} {t' l' u' : List β} (ht : List.Forall₂ T t t') 
    (hl : List.Forall₂ S l l') (hu : List.Forall₂ S u u') (n r : Int) :
    RR (RP (List.Forall₂ S) (List.Forall₂ S)) (lowerUpperLemire t n r l u) (lowerUpperLemire t' n r l' u') := by
  unfold lowerUpperLemire
  refine RR.bind_same fun du => ?_
  refine RR.bind_same fun dl => ?_
  refine RR.bind (RR.forInt (S := RLem S) ⟨rfl, rfl, hl, hu⟩ fun i _ _ hs => RR.lemireBody1 hlt hTS ht r i hs) fun s s' hs => ?_
  refine RR.bind (RR.forInt (S := RLem S) hs fun i _ _ hs => RR.lemireBody2 hTS ht r i hs) fun s s' hs => ?_
  exact .ok ⟨hs.l, hs.u⟩

theorem RR.lemire {t l u : List α} {t' l' u' : List β} (ht : List.Forall₂ R t t') (hl : List.Forall₂ R l l') (hu : List.Forall₂ R u u') (n r : Int) :
    RR (RP (List.Forall₂ R) (List.Forall₂ R)) (lowerUpperLemire t n r l u) (lowerUpperLemire t' n r l' u') :=
  RR.lemireOf (T := R) H.lt (fun _ _ h => h) ht hl hu n r

/-! ## `dtw` -/

structure RInner (R : α → β → Prop) (s : DtwInner α) (s' : DtwInner β) : Prop where
  cost : List.Forall₂ R s.cost s'.cost
  minCost : R s.minCost s'.minCost
  k : s.k = s'.k

theorem RR.dtwCell {A B prev : List α} {A' B' prev' : List β} (hA : List.Forall₂ R A A') (hB : List.Forall₂ R B B') (hp : List.Forall₂ R prev prev')
    (r i j : Int) {s : DtwInner α} {s' : DtwInner β} (hs : RInner R s s') :
    RR (RInner R) (Onex.dtwCell A B r i prev j s) (Onex.dtwCell A' B' r i prev' j s') := by
  obtain ⟨c, mc, k⟩ := s
  obtain ⟨c', mc', k'⟩ := s'
  obtain ⟨hc, hmc, hk⟩ := hs
  dsimp only at hc hmc hk
  subst hk
  unfold Onex.dtwCell
  refine RR.ite Iff.rfl ?_ ?_
  · refine RR.bind (RR.vget hA _) fun _ _ h1 => ?_
    refine RR.bind (RR.vget hB _) fun _ _ h2 => ?_
    refine RR.bind (RR.vset hc (Logical.distM h1 h2) _) fun _ _ h3 => ?_
    refine RR.bind (RR.vget h3 _) fun _ _ h4 => ?_
    exact .ok ⟨h3, h4, rfl⟩
  · dsimp only
    refine RR.ite Iff.rfl (RR.bind (.pure (H.ofInt _)) fun _ _ h1 => ?_) (RR.bind (RR.vget hc _) fun _ _ h1 => ?_)
    all_goals refine RR.ite Iff.rfl (RR.bind (.pure (H.ofInt _)) fun _ _ h2 => ?_) (RR.bind (RR.vget hp _) fun _ _ h2 => ?_)
    all_goals refine RR.ite Iff.rfl (RR.bind (.pure (H.ofInt _)) fun _ _ h3 => ?_) (RR.bind (RR.vget hp _) fun _ _ h3 => ?_)
    all_goals
      refine RR.bind (RR.vget hA _) fun _ _ h4 => ?_
      refine RR.bind (RR.vget hB _) fun _ _ h5 => ?_
      refine RR.bind (RR.vset hc (by arith R) _) fun _ _ h6 => ?_
      exact .ok ⟨h6, by dsimp only; arith R, rfl⟩

structure ROuter (R : α → β → Prop) (s : DtwOuter α) (s' : DtwOuter β) : Prop where
  cost : List.Forall₂ R s.cost s'.cost
  prev : List.Forall₂ R s.prev s'.prev
  k : s.k = s'.k
  ret : Option.Rel R s.ret s'.ret

theorem RR.dtwRow {A B cb : List α} {A' B' cb' : List β} (hA : List.Forall₂ R A A') (hB : List.Forall₂ R B B') (hcb : List.Forall₂ R cb cb') {b : α} {b' : β}
    (hb : R b b') (m r i : Int) {s : DtwOuter α} {s' : DtwOuter β} (hs : ROuter R s s') :
    RR (RStep (ROuter R)) (Onex.dtwRow A B cb m r b i s) (Onex.dtwRow A' B' cb' m r b' i s') := by
  unfold Onex.dtwRow
  refine RR.bind (RR.forInt (S := RInner R) ⟨hs.cost, H.ofInt _, rfl⟩ fun j s s' h => RR.dtwCell hA hB hs.prev r i j h) fun q q' hq => ?_
  dsimp only
  refine RR.ite Iff.rfl ?_ ?_
  · refine RR.bind (RR.vget hcb _) fun c c' h1 => ?_
    have hv := H.add hq.minCost h1
    have := Logical.iff_ge hv hb
    refine RR.bind (R := Option.Rel R) (.pure ?_) ?_
    · by_cases h : DataT.ge (DataT.add q.minCost c) b = true
      · rw [if_pos h, if_pos (this.mp h)]; exact .some hv
      · rw [if_neg h, if_neg (fun h' => h (this.mpr h'))]; exact .none
    · rintro _ _ (h | _)
      · exact .ok (.brk ⟨hq.cost, hs.prev, hq.k, .some h⟩)
      · exact .ok (.next ⟨hs.prev, hq.cost, hq.k, .none⟩)
  · exact .ok (.next ⟨hs.prev, hq.cost, hq.k, .none⟩)

theorem RR.dtw {A B cb : List α} {A' B' cb' : List β} (hA : List.Forall₂ R A A') (hB : List.Forall₂ R B B') (hcb : List.Forall₂ R cb cb') {b : α} {b' : β}
    (hb : R b b') (m r : Int) : RR R (Onex.dtw A B cb m r b) (Onex.dtw A' B' cb' m r b') := by
  unfold Onex.dtw
  have hf := forall₂_replicate (R := R) (a := infTrillion) (b := infTrillion) (H.ofInt _) (2 * r + 1).toNat
  refine RR.bind (RR.forBrk (S := ROuter R) ⟨hf, hf, rfl, .none⟩ fun i s s' h => RR.dtwRow hA hB hcb hb m r i h) ?_
  rintro ⟨c, p, k, x⟩ ⟨c', p', k', x'⟩ ⟨h1, h2, h3, h4⟩
  dsimp only at h1 h2 h3 h4
  subst h3
  cases h4 with
  | some h => exact .ok h
  | none => exact RR.vget h2 _

/-! ## The search -/

theorem RR.lbKeogh {t uo lo cb : List α} {t' uo' lo' cb' : List β} {μ σ b : α} {μ' σ' b' : β} (order : List Int) (ht : List.Forall₂ R t t')
    (huo : List.Forall₂ R uo uo') (hlo : List.Forall₂ R lo lo') (hcb : List.Forall₂ R cb cb') (hμ : R μ μ') (hσ : R σ σ') (hb : R b b') (j n : Int) :
    RR (RP R (List.Forall₂ R)) (Onex.lbKeogh order t uo lo cb j n μ σ b) (Onex.lbKeogh order t' uo' lo' cb' j n μ' σ' b') := by
  unfold Onex.lbKeogh
  refine RR.forBrk ⟨Logical.zero, hcb⟩ ?_
  rintro i s s' ⟨hs1, hs2⟩
  unfold lbKeoghStep
  refine RR.ite (Logical.iff_lt hs1 hb) ?_ (.ok (.brk ⟨hs1, hs2⟩))
  refine RR.bind_same fun o => ?_
  refine RR.bind (RR.zAt ht hμ hσ _) fun _ _ h1 => ?_
  refine RR.bind (RR.vget huo _) fun _ _ h2 => ?_
  dsimp only
  refine RR.ite (by arith R) (RR.bind (R := R) (.pure (by arith R)) fun _ _ h3 => ?_)
    (RR.bind (RR.vget hlo _) fun _ _ h3 => RR.bind (R := R) (.pure (by arith R)) fun _ _ h3 => ?_)
  all_goals
    refine RR.bind (RR.vset hs2 h3 _) fun _ _ h4 => ?_
    exact .ok (.next ⟨H.add hs1 h3, h4⟩)

theorem RR.lbKeoghData {qo lB uB cb : List α} {qo' lB' uB' cb' : List β} {μ σ b : α} {μ' σ' b' : β} (order : List Int) (hqo : List.Forall₂ R qo qo')
    (hl : List.Forall₂ R lB lB') (hu : List.Forall₂ R uB uB') (hcb : List.Forall₂ R cb cb') (hμ : R μ μ') (hσ : R σ σ') (hb : R b b') (j n : Int) :
    RR (RP R (List.Forall₂ R)) (Onex.lbKeoghData order qo cb lB uB j n μ σ b) (Onex.lbKeoghData order qo' cb' lB' uB' j n μ' σ' b') := by
  unfold Onex.lbKeoghData
  refine RR.forBrk ⟨Logical.zero, hcb⟩ ?_
  rintro i s s' ⟨hs1, hs2⟩
  unfold lbKeoghDataStep
  refine RR.ite (Logical.iff_lt hs1 hb) ?_ (.ok (.brk ⟨hs1, hs2⟩))
  refine RR.bind_same fun o => ?_
  refine RR.bind (RR.zAt hu hμ hσ _) fun _ _ h1 => ?_
  refine RR.bind (RR.zAt hl hμ hσ _) fun _ _ h2 => ?_
  refine RR.bind (RR.vget hqo _) fun _ _ h3 => ?_
  have hd : R (if DataT.gt _ _ then Onex.distM _ _ else if DataT.lt _ _ then Onex.distM _ _ else DataT.zero)
      (if DataT.gt _ _ then Onex.distM _ _ else if DataT.lt _ _ then Onex.distM _ _ else DataT.zero) :=
    Logical.ite (Logical.iff_gt h3 h1) (Logical.distM h3 h1) (Logical.ite (Logical.iff_lt h3 h2) (Logical.distM h3 h2) Logical.zero)
  refine RR.bind (RR.vset hs2 hd _) fun _ _ h4 => ?_
  exact .ok (.next ⟨H.add hs1 hd, h4⟩)

theorem RR.cumulate {src cb : List α} {src' cb' : List β} (hs : List.Forall₂ R src src') (hcb : List.Forall₂ R cb cb') (m : Int) :
    RR (List.Forall₂ R) (Onex.cumulate m src cb) (Onex.cumulate m src' cb') := by
  unfold Onex.cumulate
  refine RR.bind (RR.vget hs _) fun _ _ h1 => ?_
  refine RR.bind (RR.vset hcb h1 _) fun _ _ h2 => ?_
  refine RR.forInt h2 fun n c c' hc => ?_
  refine RR.bind (RR.vget hc _) fun _ _ h3 => ?_
  refine RR.bind (RR.vget hs _) fun _ _ h4 => ?_
  exact RR.vset hc (H.add h3 h4) _

structure RRead (R : α → β → Prop) (s : ReadState α) (s' : ReadState β) : Prop where
  q : List.Forall₂ R s.q s'.q
  ex : R s.ex s'.ex
  ex2 : R s.ex2 s'.ex2
  rest : List.Forall₂ R s.rest s'.rest

theorem RR.readQuery {f q : List α} {f' q' : List β} (hf : List.Forall₂ R f f') (hq : List.Forall₂ R q q') (m : Int) :
    RR (RRead R) (Onex.readQuery m f q) (Onex.readQuery m f' q') := by
  unfold Onex.readQuery
  refine RR.forBrk ⟨hq, Logical.zero, Logical.zero, hf⟩ ?_
  rintro i ⟨q, ex, ex2, rest⟩ ⟨q', ex', ex2', rest'⟩ ⟨h1, h2, h3, h4⟩
  dsimp only at h1 h2 h3 h4
  cases h4 with
  | nil => exact .ok (.brk ⟨h1, h2, h3, .nil⟩)
  | cons hd htl =>
    refine RR.bind (RR.vset h1 hd _) fun _ _ h5 => ?_
    exact .ok (.next ⟨h5, H.add h2 hd, H.add h3 (H.mul hd hd), htl⟩)

theorem Logical.stdOf (m : Int) {ex ex2 : α} {ex' ex2' : β} (h1 : R ex ex') (h2 : R ex2 ex2') : R (Onex.stdOf m ex ex2) (Onex.stdOf m ex' ex2') := by
  unfold Onex.stdOf
  arith R

structure RQuery (R : α → β → Prop) (s : UcrQuery α) (s' : UcrQuery β) : Prop where
  m : s.m = s'.m
  r : s.r = s'.r
  q : List.Forall₂ R s.q s'.q
  order : s.order = s'.order
  qo : List.Forall₂ R s.qo s'.qo
  uo : List.Forall₂ R s.uo s'.uo
  lo : List.Forall₂ R s.lo s'.lo

theorem RR.prepare {junk : α} {junk' : β} (hj : R junk junk') (order : List Int) {f : List α} {f' : List β} (hf : List.Forall₂ R f f') (m r : Int) :
    RR (RQuery R) (Onex.prepare junk order f m r) (Onex.prepare junk' order f' m r) := by
  unfold Onex.prepare
  have hfr := forall₂_replicate hj m.toNat
  refine RR.bind (RR.readQuery hf hfr m) fun s s' hs => ?_
  refine RR.bind (RR.forInt (S := List.Forall₂ R) hs.q ?_) fun q q' hq => ?_
  · intro i q q' hq
    refine RR.bind (RR.vget hq _) fun _ _ hx => ?_
    exact RR.vset hq (H.div (H.sub hx (H.div hs.ex (H.ofInt _))) (Logical.stdOf m hs.ex hs.ex2)) _
  · refine RR.bind (RR.lemire hq hfr hfr m r) ?_
    rintro ⟨l, u⟩ ⟨l', u'⟩ ⟨hl, hu⟩
    refine RR.bind (RR.forInt (S := RP (List.Forall₂ R) (RP (List.Forall₂ R) (List.Forall₂ R))) ⟨hfr, hfr, hfr⟩ ?_) ?_
    · rintro i s s' ⟨h1, h2, h3⟩
      refine RR.bind_same fun o => ?_
      refine RR.bind (RR.vget hq _) fun _ _ hx => ?_
      refine RR.bind (RR.vset h1 hx _) fun _ _ g1 => ?_
      refine RR.bind (RR.vget hu _) fun _ _ hx => ?_
      refine RR.bind (RR.vset h2 hx _) fun _ _ g2 => ?_
      refine RR.bind (RR.vget hl _) fun _ _ hx => ?_
      refine RR.bind (RR.vset h3 hx _) fun _ _ g3 => ?_
      exact .ok ⟨g1, g2, g3⟩
    · rintro ⟨a, b, c⟩ ⟨a', b', c'⟩ ⟨h1, h2, h3⟩
      exact .ok ⟨rfl, rfl, hq, rfl, h1, h2, h3⟩

structure RUcr (R : α → β → Prop) (s : UcrState α) (s' : UcrState β) : Prop where
  t : List.Forall₂ R s.t s'.t
  ex : R s.ex s'.ex
  ex2 : R s.ex2 s'.ex2
  cb : List.Forall₂ R s.cb s'.cb
  cb1 : List.Forall₂ R s.cb1 s'.cb1
  cb2 : List.Forall₂ R s.cb2 s'.cb2
  tz : List.Forall₂ R s.tz s'.tz
  bsf : R s.bsf s'.bsf
  loc : s.loc = s'.loc

theorem RR.ucrCandidate {Q : UcrQuery α} {Q' : UcrQuery β} (hQ : RQuery R Q Q') {lB uB : List α} {lB' uB' : List β} (hl : List.Forall₂ R lB lB')
    (hu : List.Forall₂ R uB uB') {μ σ : α} {μ' σ' : β} (hμ : R μ μ') (hσ : R σ σ') (j off pos : Int) {s : UcrState α} {s' : UcrState β} (hs : RUcr R s s') :
    RR (RUcr R) (Onex.ucrCandidate Q lB uB μ σ j off pos s) (Onex.ucrCandidate Q' lB' uB' μ' σ' j off pos s') := by
  obtain ⟨m, r, q, o, qo, uo, lo⟩ := Q
  obtain ⟨m', r', q', o', qo', uo', lo'⟩ := Q'
  obtain ⟨rfl, rfl, hq, rfl, hqo, huo, hlo⟩ := hQ
  dsimp only at hq hqo huo hlo
  unfold Onex.ucrCandidate
  refine RR.bind (RR.lbKim hs.t hq hμ hσ hs.bsf _ _) fun _ _ h1 => ?_
  have hbsf := hs.bsf
  refine RR.ite (by arith R) ?_ (.ok hs)
  refine RR.bind (RR.lbKeogh o hs.t huo hlo hs.cb1 hμ hσ hs.bsf _ _) ?_
  rintro ⟨l1, c1⟩ ⟨l1', c1'⟩ ⟨hl1, hc1⟩
  refine RR.ite (by arith R) ?_ (.ok ⟨hs.t, hs.ex, hs.ex2, hs.cb, hc1, hs.cb2, hs.tz, hs.bsf, hs.loc⟩)
  refine RR.bind (RR.forInt (S := List.Forall₂ R) hs.tz ?_) fun tz tz' htz => ?_
  · intro k tz tz' h
    refine RR.bind (RR.zAt hs.t hμ hσ _) fun _ _ hz => ?_
    exact RR.vset h hz _
  refine RR.bind (RR.lbKeoghData o hqo hl hu hs.cb2 hμ hσ hs.bsf _ _) ?_
  rintro ⟨l2, c2⟩ ⟨l2', c2'⟩ ⟨hl2, hc2⟩
  refine RR.ite (by arith R) ?_ (.ok ⟨hs.t, hs.ex, hs.ex2, hs.cb, hc1, hc2, htz, hs.bsf, hs.loc⟩)
  have hsrc : List.Forall₂ R (if DataT.gt l1 l2 = true then c1 else c2) (if DataT.gt l1' l2' = true then c1' else c2') := by
    have := Logical.iff_gt hl1 hl2
    by_cases h : DataT.gt l1 l2 = true
    · rw [if_pos h, if_pos (this.mp h)]; exact hc1
    · rw [if_neg h, if_neg (fun h' => h (this.mpr h'))]; exact hc2
  refine RR.bind (RR.cumulate hsrc hs.cb m) fun cb cb' hcb => ?_
  refine RR.bind (RR.dtw htz hq hcb hs.bsf m r) fun _ _ hd => ?_
  exact RR.ite (by arith R) (.ok ⟨hs.t, hs.ex, hs.ex2, hcb, hc1, hc2, htz, hd, rfl⟩)
    (.ok ⟨hs.t, hs.ex, hs.ex2, hcb, hc1, hc2, htz, hs.bsf, hs.loc⟩)

theorem RR.ucrPoint (epoch : Int) {Q : UcrQuery α} {Q' : UcrQuery β} (hQ : RQuery R Q Q') {B lB uB : List α} {B' lB' uB' : List β} (hB : List.Forall₂ R B B')
    (hl : List.Forall₂ R lB lB') (hu : List.Forall₂ R uB uB') (it i : Int) {s : UcrState α} {s' : UcrState β} (hs : RUcr R s s') :
    RR (RUcr R) (Onex.ucrPoint epoch Q B lB uB it i s) (Onex.ucrPoint epoch Q' B' lB' uB' it i s') := by
  unfold Onex.ucrPoint
  have hm := hQ.m
  simp only [← hm]
  refine RR.bind (RR.vget hB _) fun d d' hd => ?_
  have hex := H.add hs.ex hd
  have hex2 := H.add hs.ex2 (H.mul hd hd)
  refine RR.bind (RR.vset hs.t hd _) fun t t' ht => ?_
  refine RR.bind (RR.vset ht hd _) fun t t' ht => ?_
  refine RR.ite Iff.rfl ?_ (.ok ⟨ht, hex, hex2, hs.cb, hs.cb1, hs.cb2, hs.tz, hs.bsf, hs.loc⟩)
  refine RR.bind (RR.ucrCandidate hQ hl hu (H.div hex (H.ofInt _)) (Logical.stdOf _ hex hex2) _ _ _
    ⟨ht, hex, hex2, hs.cb, hs.cb1, hs.cb2, hs.tz, hs.bsf, hs.loc⟩) fun s s' hs => ?_
  refine RR.bind (RR.vget hs.t _) fun _ _ htj => ?_
  exact .ok ⟨hs.t, H.sub hs.ex htj, H.sub hs.ex2 (H.mul htj htj), hs.cb, hs.cb1, hs.cb2, hs.tz, hs.bsf, hs.loc⟩

omit [DataT α] [DataT β] H in
theorem RR.fillFirst (epoch m it : Int) {b f : List α} {b' f' : List β} (hb : List.Forall₂ R b b') (hf : List.Forall₂ R f f') :
    RR (RP (List.Forall₂ R) (List.Forall₂ R)) (Onex.fillFirst epoch m it b f) (Onex.fillFirst epoch m it b' f') := by
  unfold Onex.fillFirst
  refine RR.ite Iff.rfl ?_ ?_
  · refine RR.forInt (S := RP (List.Forall₂ R) (List.Forall₂ R)) ⟨hb, hf⟩ ?_
    rintro k ⟨b, f⟩ ⟨b', f'⟩ ⟨h1, h2⟩
    dsimp only at h1 h2
    cases h2 with
    | nil => exact .ok ⟨h1, .nil⟩
    | cons hd htl => exact RR.bind (RR.vset h1 hd _) fun _ _ h => .ok ⟨h, htl⟩
  · refine RR.bind (RR.forInt (S := List.Forall₂ R) hb ?_) fun _ _ h => .ok ⟨h, hf⟩
    intro k b b' h
    exact RR.bind (RR.vget h _) fun _ _ hx => RR.vset h hx _

omit [DataT α] [DataT β] H in
theorem RR.fillRest (epoch m : Int) {b f : List α} {b' f' : List β} (hb : List.Forall₂ R b b') (hf : List.Forall₂ R f f') :
    RR (RP (List.Forall₂ R) (RP (List.Forall₂ R) Eq)) (Onex.fillRest epoch m b f) (Onex.fillRest epoch m b' f') := by
  unfold Onex.fillRest
  refine RR.forBrk (S := RP (List.Forall₂ R) (RP (List.Forall₂ R) Eq)) ⟨hb, hf, rfl⟩ ?_
  rintro ep ⟨b, f, e⟩ ⟨b', f', e'⟩ ⟨h1, h2, h3⟩
  dsimp only at h1 h2 h3
  subst h3
  cases h2 with
  | nil => exact .ok (.brk ⟨h1, .nil, rfl⟩)
  | cons hd htl => exact RR.bind (RR.vset h1 hd _) fun _ _ h => .ok (.next ⟨h, htl, rfl⟩)

structure RRun (R : α → β → Prop) (s : UcrRun α) (s' : UcrRun β) : Prop where
  buffer : List.Forall₂ R s.buffer s'.buffer
  lBuff : List.Forall₂ R s.lBuff s'.lBuff
  uBuff : List.Forall₂ R s.uBuff s'.uBuff
  rest : List.Forall₂ R s.rest s'.rest
  it : s.it = s'.it
  ep : s.ep = s'.ep
  s : RUcr R s.s s'.s

theorem RR.ucrLoop (epoch : Int) {Q : UcrQuery α} {Q' : UcrQuery β} (hQ : RQuery R Q Q') :
    ∀ (k : ℕ) {x : UcrRun α} {x' : UcrRun β}, RRun R x x' → RR (RRun R) (Onex.ucrLoop epoch Q k x) (Onex.ucrLoop epoch Q' k x')
  | 0, _, _, _ => .ub _
  | k + 1, ⟨b, l, u, f, it, ep, s⟩, ⟨b', l', u', f', it', ep', s'⟩, ⟨h1, h2, h3, h4, h5, h6, h7⟩ => by
    dsimp only at h1 h2 h3 h4 h5 h6 h7
    subst h5 h6
    unfold Onex.ucrLoop
    have hm := hQ.m
    simp only [← hm, ← hQ.r]
    refine RR.bind (RR.fillFirst epoch _ it h1 h4) ?_
    rintro ⟨b, f⟩ ⟨b', f'⟩ ⟨hb, hf⟩
    refine RR.bind (RR.fillRest epoch _ hb hf) ?_
    rintro ⟨b, f, e⟩ ⟨b', f', e'⟩ ⟨hb, hf, he⟩
    dsimp only at hb hf he
    subst he
    refine RR.ite Iff.rfl (.ok ⟨hb, h2, h3, hf, rfl, rfl, h7⟩) ?_
    refine RR.bind (RR.lemire hb h2 h3 _ _) ?_
    rintro ⟨l, u⟩ ⟨l', u'⟩ ⟨hl, hu⟩
    refine RR.ite Iff.rfl (.ub _) ?_
    refine RR.bind (RR.forInt (S := RUcr R) ⟨h7.t, Logical.zero, Logical.zero, h7.cb, h7.cb1, h7.cb2, h7.tz, h7.bsf, h7.loc⟩ fun i s s' hs =>
      RR.ucrPoint epoch hQ hb hl hu it i hs) fun s s' hs => ?_
    refine RR.ite Iff.rfl (.ok ⟨hb, hl, hu, hf, rfl, rfl, hs⟩) ?_
    exact RR.ucrLoop epoch hQ k ⟨hb, hl, hu, hf, rfl, rfl, hs⟩

theorem RR.calculateWith (epoch : Int) {junk : α} {junk' : β} (hj : R junk junk') (order : List Int) {d f : List α} {d' f' : List β}
    (hd : List.Forall₂ R d d') (hf : List.Forall₂ R f f') (m r : Int) :
    RR (RP Eq (RP R Eq)) (Onex.calculateWith epoch junk order d f m r) (Onex.calculateWith epoch junk' order d' f' m r) := by
  unfold Onex.calculateWith
  refine RR.bind (RR.prepare hj order hf m r) fun Q Q' hQ => ?_
  rw [hd.length_eq]
  have hz := forall₂_replicate (Logical.zero (R := R)) m.toNat
  have hb := forall₂_replicate hj epoch.toNat
  refine RR.bind (RR.ucrLoop epoch hQ _ ⟨hb, hb, hb, hd, rfl, rfl, forall₂_replicate hj _, Logical.zero, Logical.zero, hz, hz, hz, forall₂_replicate hj _, H.ofInt _, rfl⟩) ?_
  rintro x x' hx
  exact .ok ⟨hx.s.loc, hx.s.bsf, by rw [hx.it, hx.ep]⟩

end Onex
