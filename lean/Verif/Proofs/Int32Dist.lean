import Verif.Model.Int32
import Verif.Spec.Size
import Verif.Proofs.Transfer
import Mathlib.Tactic.Linarith

/-!
# Checked arithmetic agrees with unbounded arithmetic: distances
-/

namespace Onex

/-- The checked computation `x32` behaves exactly like `x`, and every value it returns satisfies `P`. -/
def SameInt {β : Type} (P : β → Prop) (x32 x : Res β) : Prop := RR (fun a b => a = b ∧ P b) x32 x

namespace SameInt

variable {β γ : Type} {P : β → Prop} {Q : γ → Prop}

theorem eq {x32 x : Res β} (h : SameInt P x32 x) : x32 = x := by
  cases h with
  | ok h => rw [h.1]
  | throw e => rfl
  | ub w => rfl

theorem post {x32 x : Res β} (h : SameInt P x32 x) {a : β} (ha : x = .ok a) : P a := by
  subst ha
  cases h with
  | ok h => exact h.2

theorem ok {a : β} (h : P a) : SameInt P (Res.ok a) (Res.ok a) := RR.ok ⟨rfl, h⟩

theorem same {x : Res β} (h : ∀ a, x = .ok a → P a) : SameInt P x x := by
  cases x with
  | ok a => exact ok (h a rfl)
  | throw e => exact .throw e
  | ub w => exact .ub w

theorem of_eq {x32 x : Res β} (h : x32 = x) (hp : ∀ a, x = .ok a → P a) : SameInt P x32 x := by subst h; exact same hp

theorem triv {x : Res β} : SameInt (fun _ => True) x x := same fun _ _ => trivial

theorem mono {P' : β → Prop} {x32 x : Res β} (h : SameInt P x32 x) (hp : ∀ a, P a → P' a) : SameInt P' x32 x := by
  cases h with
  | ok h => exact RR.ok ⟨h.1, hp _ h.2⟩
  | throw e => exact .throw e
  | ub w => exact .ub w

theorem bind {x32 x : Res β} {f32 f : β → Res γ} (h : SameInt P x32 x) (hf : ∀ a, P a → SameInt Q (f32 a) (f a)) :
    SameInt Q (x32 >>= f32) (x >>= f) :=
  RR.bind h (by rintro a _ ⟨rfl, ha⟩; exact hf a ha)

/-- Binding the same thing on both sides. -/
theorem both {x : Res β} {f32 f : β → Res γ} (hf : ∀ a, x = .ok a → SameInt Q (f32 a) (f a)) :
    SameInt Q (x >>= f32) (x >>= f) :=
  bind (same fun _ h => h) hf

theorem ite {p : Prop} [Decidable p] {a b a' b' : Res β} (h1 : p → SameInt P a a') (h2 : ¬ p → SameInt P b b') :
    SameInt P (if p then a else b) (if p then a' else b') := by
  by_cases hp : p
  · rw [if_pos hp, if_pos hp]; exact h1 hp
  · rw [if_neg hp, if_neg hp]; exact h2 hp

theorem ck {e : Int} {f32 : Unit → Res β} {x : Res β} (h : -2147483648 ≤ e ∧ e ≤ 2147483647) (hx : SameInt P (f32 ()) x) :
    SameInt P (Onex.ck e >>= f32) x := by
  have : Onex.ck e = .ok () := by simp [Onex.ck, inIntRange, h]
  rw [this]; exact hx

end SameInt

theorem ck_eq {e : Int} (h : -2147483648 ≤ e ∧ e ≤ 2147483647) : ck e = .ok () := by simp [ck, inIntRange, h]

theorem ck_ub {e : Int} (h : e < -2147483648 ∨ 2147483647 < e) : ck e = .ub "signed overflow" := by
  have : ¬ (-2147483648 ≤ e ∧ e ≤ 2147483647) := by omega
  simp only [ck, inIntRange, this, decide_false]
  rfl

/-- Discharge the checks in front of the goal by linear arithmetic. -/
macro "cks" : tactic => `(tactic| repeat (refine SameInt.ck (by constructor <;> omega) ?_))

theorem RR.mono {σ τ : Type} {R S : σ → τ → Prop} {x : Res σ} {y : Res τ} (h : RR R x y) (hs : ∀ a b, R a b → S a b) : RR S x y := by
  cases h with
  | ok h => exact .ok (hs _ _ h)
  | throw e => exact .throw e
  | ub w => exact .ub w

section loops
variable {σ τ : Type}

theorem RR.forIntGo_range {S : Int → σ → τ → Prop} {f : Int → σ → Res σ} {g : Int → τ → Res τ} {hi : Int} :
    ∀ (k : ℕ) (lo : Int) {s : σ} {t : τ}, lo + k ≤ hi →
      (∀ i s t, lo ≤ i → i < hi → S i s t → RR (S (i + 1)) (f i s) (g i t)) →
      S lo s t → RR (S (lo + k)) (Onex.forIntGo f k lo s) (Onex.forIntGo g k lo t)
  | 0, lo, _, _, _, _, hs => by simpa [Onex.forIntGo] using RR.ok hs
  | k + 1, lo, s, t, hk, h, hs => by
    refine RR.bind (h lo s t le_rfl (by push_cast at hk; omega) hs) fun a b hab => ?_
    have := RR.forIntGo_range (S := S) (f := f) (g := g) (hi := hi) k (lo + 1) (s := a) (t := b) (by push_cast at hk; omega)
      (fun i s t hi' hlt => h i s t (by omega) hlt) hab
    have e : lo + 1 + (k : Int) = lo + ((k + 1 : ℕ) : Int) := by push_cast; omega
    rwa [e] at this

/-- Two loops over the same range, with a relation between the states that may depend on the loop variable. -/
theorem RR.forInt_range {S : Int → σ → τ → Prop} {f : Int → σ → Res σ} {g : Int → τ → Res τ} {lo hi : Int} {s : σ} {t : τ}
    (h : ∀ i s t, lo ≤ i → i < hi → S i s t → RR (S (i + 1)) (f i s) (g i t)) (hs : S lo s t) :
    RR (S (max lo hi)) (Onex.forInt lo hi s f) (Onex.forInt lo hi t g) := by
  by_cases hh : lo ≤ hi
  · have := RR.forIntGo_range (S := S) (f := f) (g := g) (hi := hi) (hi - lo).toNat lo (s := s) (t := t) (by omega) h hs
    have e : lo + ((hi - lo).toNat : Int) = max lo hi := by omega
    rwa [e] at this
  · rw [forInt_of_le (by omega), forInt_of_le (by omega), max_eq_left (by omega)]
    exact .ok hs

theorem SameInt.forInt {I : Int → σ → Prop} {f g : Int → σ → Res σ} {lo hi : Int} {s : σ}
    (h : ∀ i s, lo ≤ i → i < hi → I i s → SameInt (I (i + 1)) (f i s) (g i s)) (hs : I lo s) :
    SameInt (I (max lo hi)) (Onex.forInt lo hi s f) (Onex.forInt lo hi s g) :=
  RR.forInt_range (S := fun i a b => a = b ∧ I i b)
    (by rintro i a b h0 h1 ⟨rfl, hi⟩; exact h i a h0 h1 hi) ⟨rfl, hs⟩

theorem SameInt.forBrkGo {f g : Int → σ → Res (Step σ)} {hi : Int} :
    ∀ (k : ℕ) (lo : Int) (s : σ), lo + k ≤ hi → (∀ i s, lo ≤ i → i < hi → f i s = g i s) →
      Onex.forBrkGo f k lo s = Onex.forBrkGo g k lo s
  | 0, _, _, _, _ => rfl
  | k + 1, lo, s, hk, h => by
    unfold Onex.forBrkGo
    rw [h lo s le_rfl (by push_cast at hk; omega)]
    congr 1
    funext st
    cases st with
    | next s' => exact SameInt.forBrkGo k (lo + 1) s' (by push_cast at hk; omega) fun i s h0 h1 => h i s (by omega) h1
    | brk s' => rfl

theorem forBrk_congr {f g : Int → σ → Res (Step σ)} {lo hi : Int} {s : σ}
    (h : ∀ i s, lo ≤ i → i < hi → f i s = g i s) : forBrk lo hi s f = forBrk lo hi s g := by
  by_cases hh : lo ≤ hi
  · exact SameInt.forBrkGo _ _ _ (by omega) h
  · rw [forBrk_of_le (by omega), forBrk_of_le (by omega)]

theorem forInt_congr' {f g : Int → σ → Res σ} {lo hi : Int} {s : σ}
    (h : ∀ i s, lo ≤ i → i < hi → f i s = g i s) : forInt lo hi s f = forInt lo hi s g :=
  (SameInt.forInt (I := fun _ _ => True) (fun i s h0 h1 _ => SameInt.of_eq (h i s h0 h1) fun _ _ => trivial) trivial).eq

end loops

variable {α : Type} [DataT α]

open DataT

theorem band_le {ratio : α} {l r : Int} (h : calculateWarpingBandSize ratio l = .ok r) : r ≤ l - 1 := by
  unfold calculateWarpingBandSize at h
  split at h
  · cases h; omega
  · cases h

theorem band32 {ratio : α} (hb : BandNonneg ratio) {l : Int} (h0 : 0 ≤ l) (h1 : l ≤ intLimit) :
    SameInt (fun r => -1 ≤ r ∧ r ≤ l - 1) (calculateWarpingBandSize32 ratio l) (calculateWarpingBandSize ratio l) := by
  unfold intLimit at h1
  unfold calculateWarpingBandSize32
  cks
  exact SameInt.same fun r h => ⟨hb l r h0 h, band_le h⟩

theorem warpedDistanceBand32_eq {r : Int} {a b : List α} {dropout : α} (ha : len a ≤ intLimit) (hb : len b ≤ intLimit)
    (hr : -1 ≤ r) (hr1 : r ≤ intLimit) : warpedDistanceBand32 r a b dropout = warpedDistanceBand r a b dropout := by
  have la := len_nonneg a
  have lb := len_nonneg b
  unfold intLimit at ha hb hr1
  have hn : ∀ x : α, eucNormDtw32 x (len a) (len b) = .ok (eucNormDtw x (len a) (len b)) := by
    intro x
    unfold eucNormDtw32
    rw [ck_eq (by omega)]; rfl
  have hrow : ∀ (i : α) (s : Mat α × Bool), forBrk 1 (len a) s (warpedRow32 a b r i) = forBrk 1 (len a) s (warpedRow a b r i) := by
    intro id s
    refine forBrk_congr fun i s h0 h1 => ?_
    unfold warpedRow32 warpedRow
    rw [ck_eq (by omega), ck_eq (by omega), ck_eq (by omega)]
    simp only [Res.bind_ok]
    rw [forInt_congr' (g := warpedCell a b r i)]
    intro j s j0 j1
    unfold warpedCell32
    rw [ck_eq (by omega), ck_eq (by omega), ck_eq (by omega), ck_eq (by omega), ck_eq (by omega), ck_eq (by omega)]
    simp only [Res.bind_ok]
  unfold warpedDistanceBand32 warpedDistanceBand
  simp only [hn, hrow, ck_eq (e := len a - 1) (by omega), ck_eq (e := len b - 1) (by omega), ck_eq (e := 2 * r) (by omega),
    ck_eq (e := 2 * r + 1) (by omega), Res.bind_ok, Res.pure_eq]

theorem warpedDistance32_eq {ratio : α} (hb : BandNonneg ratio) {a b : List α} {dropout : α} (h1 : len a ≤ intLimit)
    (h2 : len b ≤ intLimit) : warpedDistance32 ratio a b dropout = warpedDistance ratio a b dropout := by
  have la := len_nonneg a
  unfold warpedDistance32 warpedDistance
  exact (SameInt.bind (Q := fun _ => True) (band32 hb (by omega) (by omega)) fun r hr =>
    SameInt.of_eq (warpedDistanceBand32_eq h1 h2 hr.1 (by omega)) fun _ _ => trivial).eq

/-! ## Envelopes -/

/-- Ranges of the fields of a deque with capacity `C` that holds indices below `N` and whose `size` is in `[lo, hi]`. -/
structure DOk (C N lo hi : Int) (d : Deque) : Prop where
  cap : d.capacity = C
  pos : 1 ≤ C
  f0 : 0 ≤ d.f
  f1 : d.f ≤ C
  r0 : -1 ≤ d.r
  r1 : d.r ≤ C
  cells : ∀ v, some v ∈ d.data → 0 ≤ v ∧ v < N
  s0 : lo ≤ d.size
  s1 : d.size ≤ hi

namespace DOk
variable {C N lo hi : Int} {d : Deque}

theorem mono (h : DOk C N lo hi d) {lo' hi' : Int} (h0 : lo' ≤ lo) (h1 : hi ≤ hi') : DOk C N lo' hi' d :=
  { h with s0 := by have := h.s0; omega, s1 := by have := h.s1; omega }

theorem pushBack (h : DOk C N lo hi d) (hC : C ≤ 2000000000) (hlo : -2000000000 ≤ lo) (hhi : hi ≤ 2000000000) {v : Int} (v0 : 0 ≤ v)
    (v1 : v < N) : SameInt (DOk C N (lo + 1) (hi + 1)) (d.pushBack32 v) (d.pushBack v) := by
  have ⟨c, p, f0, f1, r0, r1, cells, s0, s1⟩ := h
  unfold Deque.pushBack32
  cks
  unfold Deque.pushBack
  refine SameInt.both fun data hd => SameInt.ok ?_
  obtain ⟨-, -, rfl⟩ := vset_eq_ok.mp hd
  refine ⟨c, p, f0, f1, ?_, ?_, ?_, by simp only; omega, by simp only; omega⟩
  · simp only; split <;> omega
  · simp only; split <;> omega
  · intro w hw
    rcases List.mem_or_eq_of_mem_set hw with hw | hw
    · exact cells w hw
    · cases hw; exact ⟨v0, v1⟩

theorem popFront (h : DOk C N lo hi d) (hC : C ≤ 2000000000) (hlo : -2000000000 ≤ lo) (hhi : hi ≤ 2000000000) :
    SameInt (DOk C N (lo - 1) (hi - 1)) d.popFront32 d.popFront := by
  have ⟨c, p, f0, f1, r0, r1, cells, s0, s1⟩ := h
  unfold Deque.popFront32
  cks
  unfold Deque.popFront
  refine SameInt.ok ⟨c, p, ?_, ?_, r0, r1, cells, by simp only; omega, by simp only; omega⟩
  · simp only; split <;> omega
  · simp only; split <;> omega

theorem popBack (h : DOk C N lo hi d) (hC : C ≤ 2000000000) (hlo : -2000000000 ≤ lo) (hhi : hi ≤ 2000000000) :
    SameInt (DOk C N (lo - 1) (hi - 1)) d.popBack32 d.popBack := by
  have ⟨c, p, f0, f1, r0, r1, cells, s0, s1⟩ := h
  unfold Deque.popBack32
  cks
  unfold Deque.popBack
  rw [if_neg (by omega)]
  have h1 := Int.tmod_nonneg d.capacity (a := d.r + 1) (by omega)
  have h2 := Int.tmod_lt_of_pos (d.r + 1) (b := d.capacity) (by omega)
  exact SameInt.ok ⟨c, p, f0, f1, by simp only; omega, by simp only; omega, cells, by simp only; omega, by simp only; omega⟩

theorem cell (h : DOk C N lo hi d) {i : Int} {v : Int} (hc : vget d.data i = .ok (some v)) : 0 ≤ v ∧ v < N :=
  h.cells v (List.mem_of_getElem? (vget_eq_ok.mp hc).2)

theorem front (h : DOk C N lo hi d) (hC : C ≤ 2000000000) : SameInt (fun v => 0 ≤ v ∧ v < N) d.front32 d.front := by
  have ⟨c, p, f0, f1, r0, r1, cells, s0, s1⟩ := h
  unfold Deque.front32
  cks
  unfold Deque.front
  exact SameInt.both fun c hc => by
    cases c with
    | none => exact .ub _
    | some v => exact SameInt.ok (h.cell hc)

theorem back (h : DOk C N lo hi d) (hC : C ≤ 2000000000) : SameInt (fun v => 0 ≤ v ∧ v < N) d.back32 d.back := by
  have ⟨c, p, f0, f1, r0, r1, cells, s0, s1⟩ := h
  unfold Deque.back32
  cks
  unfold Deque.back
  exact SameInt.ite (fun _ => .ub _) fun _ => SameInt.both fun c hc => by
    cases c with
    | none => exact .ub _
    | some v => exact SameInt.ok (h.cell hc)

omit [DataT α] in
theorem popWhile {cmp : α → α → Bool} {t : List α} {ti : α} (hC : C ≤ 2000000000) (hhi : hi ≤ 2000000000) :
    ∀ (k : ℕ) {d : Deque} {lo : Int}, DOk C N lo hi d → k = d.size.toNat →
      SameInt (DOk C N 0 hi) (popWhile32 cmp t ti k d) (Onex.popWhile cmp t ti k d)
  | 0, d, lo, h, hk => by
    unfold popWhile32 Onex.popWhile
    refine SameInt.ite (fun he => SameInt.ok ?_) fun _ => .ub _
    have hs : d.size = 0 := by simpa [Deque.empty] using he
    exact { h with s0 := by omega }
  | k + 1, d, lo, h, hk => by
    unfold popWhile32 Onex.popWhile
    have hs : 0 < d.size := by omega
    have h' : DOk C N 1 hi d := { h with s0 := by omega }
    refine SameInt.ite (fun he => SameInt.ok (h'.mono (by omega) le_rfl)) fun _ => ?_
    refine SameInt.bind (h.back hC) fun v hv => SameInt.both fun tv htv => SameInt.ite (fun _ => ?_) fun _ => SameInt.ok (h'.mono (by omega) le_rfl)
    have hpb := h'.popBack hC (by omega) hhi
    refine SameInt.bind (SameInt.of_eq hpb.eq (P := fun d' => DOk C N (1 - 1) (hi - 1) d' ∧ d'.size = d.size - 1) fun d' hd' => ⟨hpb.post hd', ?_⟩) fun d' hd' => ?_
    · unfold Deque.popBack at hd'
      split at hd'
      · cases hd'
      · cases hd'; rfl
    · exact popWhile hC hhi k (hd'.1.mono le_rfl (by omega)) (by omega)

end DOk

/-- Both deques of the state are in range. -/
def LOk (C N : Int) (i : Int) (s : LemireState α) : Prop := DOk C N (-i) i s.du ∧ DOk C N (-i) i s.dl

theorem lemireBody1_fits {t : List α} {n r : Int} (hn : n ≤ intLimit) (hr0 : 0 ≤ r) (hr : r ≤ n - 1) {i : Int} (i0 : 1 ≤ i) (i1 : i < n)
    {s : LemireState α} (hs : LOk (2 * r + 2) n i s) :
    SameInt (LOk (2 * r + 2) n (i + 1)) (lemireBody1_32 t r i s) (lemireBody1 t r i s) := by
  unfold intLimit at hn
  have hC : 2 * r + 2 ≤ 2000000000 := by omega
  unfold lemireBody1_32 lemireBody1
  extract_lets j1 j2 k1 k2
  have h1 : ∀ s, LOk (2 * r + 2) n i s → SameInt (LOk (2 * r + 2) n (i + 1)) (j1 s) (k1 s) := by
    intro s hs
    refine SameInt.bind (hs.1.pushBack hC (by omega) (by omega) (by omega) i1) fun du hdu => ?_
    refine SameInt.bind (hs.2.pushBack hC (by omega) (by omega) (by omega) i1) fun dl hdl => ?_
    refine SameInt.bind (hdu.front hC) fun uf huf => ?_
    cks
    refine SameInt.ite (fun _ => ?_) fun _ => ?_
    · exact SameInt.bind (hdu.popFront hC (by omega) (by omega)) fun du hdu =>
        SameInt.ok ⟨hdu.mono (by omega) (by omega), hdl.mono (by omega) (by omega)⟩
    · refine SameInt.bind (hdl.front hC) fun lf hlf => ?_
      cks
      refine SameInt.ite (fun _ => ?_) fun _ => ?_
      · exact SameInt.bind (hdl.popFront hC (by omega) (by omega)) fun dl hdl =>
          SameInt.ok ⟨hdu.mono (by omega) (by omega), hdl.mono (by omega) (by omega)⟩
      · exact SameInt.ok ⟨hdu.mono (by omega) (by omega), hdl.mono (by omega) (by omega)⟩
  have h2 : ∀ s, LOk (2 * r + 2) n i s → SameInt (LOk (2 * r + 2) n (i + 1)) (j2 s) (k2 s) := by
    intro s hs
    refine SameInt.both fun ti _ => SameInt.both fun tp _ => SameInt.ite (fun _ => ?_) fun _ => ?_
    · refine SameInt.bind (hs.1.popBack hC (by omega) (by omega)) fun du hdu => ?_
      refine SameInt.bind (DOk.popWhile hC (by omega) _ hdu rfl) fun du hdu => ?_
      exact h1 _ ⟨hdu.mono (by omega) (by omega), hs.2⟩
    · refine SameInt.bind (hs.2.popBack hC (by omega) (by omega)) fun du hdu => ?_
      refine SameInt.bind (DOk.popWhile hC (by omega) _ hdu rfl) fun du hdu => ?_
      exact h1 _ ⟨hs.1, hdu.mono (by omega) (by omega)⟩
  refine SameInt.ite (fun _ => ?_) fun _ => h2 _ hs
  cks
  refine SameInt.bind (hs.1.front hC) fun uf huf => SameInt.both fun tu _ => SameInt.both fun u _ => ?_
  exact SameInt.bind (hs.2.front hC) fun lf hlf => SameInt.both fun tl _ => SameInt.both fun l _ => h2 _ hs

omit [DataT α] in
theorem lemireBody2_fits {t : List α} {n r : Int} (hn : n ≤ intLimit) (hr0 : 0 ≤ r) (hr : r ≤ n - 1) {i : Int} (i0 : n ≤ i)
    (i1 : i < n + r + 1) {s : LemireState α} (hs : LOk (2 * r + 2) n i s) :
    SameInt (LOk (2 * r + 2) n (i + 1)) (lemireBody2_32 t r i s) (lemireBody2 t r i s) := by
  unfold intLimit at hn
  have hC : 2 * r + 2 ≤ 2000000000 := by omega
  unfold lemireBody2_32 lemireBody2
  cks
  refine SameInt.bind (hs.1.front hC) fun uf huf => SameInt.both fun tu _ => SameInt.both fun u _ => ?_
  refine SameInt.bind (hs.2.front hC) fun lf hlf => SameInt.both fun tl _ => SameInt.both fun l _ => ?_
  cks
  extract_lets j1 s1 k1
  have h1 : ∀ s', DOk (2 * r + 2) n (-(i + 1)) (i + 1) s'.du → DOk (2 * r + 2) n (-i) i s'.dl →
      SameInt (LOk (2 * r + 2) n (i + 1)) (j1 s') (k1 s') := by
    intro s' h1 h2
    refine SameInt.ck (by constructor <;> omega) ?_
    refine SameInt.ite (fun _ => ?_) fun _ => SameInt.ok ⟨h1, h2.mono (by omega) (by omega)⟩
    exact SameInt.bind (h2.popFront hC (by omega) (by omega)) fun dl hdl => SameInt.ok ⟨h1, hdl.mono (by omega) (by omega)⟩
  refine SameInt.ite (fun _ => ?_) fun _ => h1 _ (hs.1.mono (by omega) (by omega)) hs.2
  exact SameInt.bind (hs.1.popFront hC (by omega) (by omega)) fun du hdu => h1 _ (hdu.mono (by omega) (by omega)) hs.2

theorem lowerUpperLemire32_eq {t : List α} {n r : Int} (hn0 : 0 ≤ n) (hn : n ≤ intLimit) (hr0 : -1 ≤ r) (hr : r ≤ n - 1) (l0 u0 : List α) :
    lowerUpperLemire32 t n r l0 u0 = lowerUpperLemire t n r l0 u0 := by
  refine SameInt.eq (P := fun _ => True) ?_
  have hn' := hn
  unfold intLimit at hn'
  unfold lowerUpperLemire32 lowerUpperLemire
  cks
  by_cases hneg : r < 0
  · obtain rfl : r = -1 := by omega
    have e : (Deque.new (2 * (-1) + 2)).pushBack32 0 = .ub "write out of bounds" := rfl
    have e' : (Deque.new (2 * (-1) + 2)).pushBack 0 = .ub "write out of bounds" := rfl
    rw [e, e']
    exact .ub _
  have hnew : DOk (2 * r + 2) n 0 0 (Deque.new (2 * r + 2)) := by
    refine ⟨rfl, by omega, le_rfl, by simp only [Deque.new]; omega, by simp only [Deque.new]; omega, by simp only [Deque.new]; omega, ?_, le_rfl, le_rfl⟩
    intro v hv
    simp [Deque.new] at hv
  refine SameInt.bind (hnew.pushBack (by omega) (by omega) (by omega) le_rfl (by omega)) fun du hdu => ?_
  refine SameInt.bind (hnew.pushBack (by omega) (by omega) (by omega) le_rfl (by omega)) fun dl hdl => ?_
  refine SameInt.bind (SameInt.forInt (I := LOk (2 * r + 2) n) (fun i s i0 i1 hs => lemireBody1_fits hn (by omega) hr i0 i1 hs)
    ⟨hdu.mono (by omega) le_rfl, hdl.mono (by omega) le_rfl⟩) fun s hs => ?_
  cks
  refine SameInt.bind (SameInt.forInt (I := LOk (2 * r + 2) n) (fun i s i0 i1 hs => lemireBody2_fits hn (by omega) hr i0 i1 hs) ?_) fun s hs => SameInt.ok trivial
  have e : max 1 n = n := by omega
  rwa [e] at hs

theorem getKeogh32_fits (junk : α) {s : Series α} {r : Int} (hs : len s.vals ≤ intLimit) (hr : -1 ≤ r) :
    SameInt (fun y => y.2.vals = s.vals) (getKeogh32 junk s r) (getKeogh junk s r) := by
  have l0 := len_nonneg s.vals
  have hg : generateKeoghLU32 junk s.vals r = generateKeoghLU junk s.vals r := by
    unfold generateKeoghLU32 generateKeoghLU
    have hs' := hs
    unfold intLimit at hs'
    rw [ck_eq (by omega)]
    simp only [Res.bind_ok]
    exact lowerUpperLemire32_eq l0 hs (by omega) (by omega) _ _
  unfold getKeogh32 getKeogh
  rw [hg]
  cases s.cache with
  | none => exact SameInt.both fun a _ => SameInt.ok rfl
  | some c => exact SameInt.ite (fun _ => SameInt.ok rfl) fun _ => SameInt.both fun a _ => SameInt.ok rfl

theorem keoghLowerBound32_fits (junk : α) {ratio : α} (hb : BandNonneg ratio) {a b : Series α} (dropout : α) (h1 : len a.vals ≤ intLimit)
    (h2 : len b.vals ≤ intLimit) :
    SameInt (fun y => y.2.vals = a.vals) (keoghLowerBound32 junk ratio a b dropout) (keoghLowerBound junk ratio a b dropout) := by
  have la := len_nonneg a.vals
  have lb := len_nonneg b.vals
  unfold keoghLowerBound32 keoghLowerBound
  refine SameInt.bind (band32 hb (by unfold Series.length; omega) (by unfold Series.length; omega)) fun r hr => ?_
  refine SameInt.bind (getKeogh32_fits junk h1 hr.1) fun y hy => ?_
  obtain ⟨⟨lo, up⟩, a'⟩ := y
  simp only at hy
  refine SameInt.bind (getKeogh32_fits junk (s := a') (by rw [hy]; exact h1) hr.1) fun y hy' => ?_
  obtain ⟨⟨lo', up'⟩, a''⟩ := y
  simp only at hy'
  refine SameInt.both fun x _ => ?_
  unfold eucNormDtw32
  unfold intLimit at h1 h2
  rw [Res.bind_assoc']
  refine SameInt.ck ?_ (SameInt.ok (by simp only; rw [hy', hy]))
  unfold Series.length
  rw [hy', hy]
  omega

/-- The two distances agree on short series, and leave the values of the series alone. -/
def ShortSame (d32 d : Dist α) : Prop :=
  ∀ a b x, len a.vals ≤ intLimit → len b.vals ≤ intLimit →
    SameInt (fun y => y.2.1.vals = a.vals ∧ y.2.2.vals = b.vals) (d32 a b x) (d a b x)

theorem cascade32_fits (junk : α) {ratio : α} (hb : BandNonneg ratio) :
    ShortSame (cascadeDistance32 junk ratio) (cascadeDistance junk ratio) := by
  intro a b x h1 h2
  unfold cascadeDistance32 cascadeDistance
  refine SameInt.bind (P := fun y => y.2.1.vals = a.vals ∧ y.2.2.vals = b.vals) ?_ fun y hy => ?_
  · unfold crossKeoghLowerBound32 crossKeoghLowerBound
    refine SameInt.bind (keoghLowerBound32_fits junk hb x h1 h2) fun y hy => ?_
    refine SameInt.ite (fun _ => SameInt.ok ⟨hy, rfl⟩) fun _ => ?_
    exact SameInt.bind (keoghLowerBound32_fits junk hb x h2 (by rw [hy]; exact h1)) fun z hz => SameInt.ok ⟨hy, hz⟩
  · obtain ⟨lb, a', b'⟩ := y
    simp only at hy
    refine SameInt.ite (fun _ => SameInt.ok hy) fun _ => ?_
    rw [warpedDistance32_eq hb (by rw [hy.1]; exact h1) (by rw [hy.2]; exact h2)]
    exact SameInt.both fun d _ => SameInt.ok hy

theorem fn32_fits {ratio : α} (hb : BandNonneg ratio) (dn : DistName) : ShortSame (dn.fn32 ratio) (dn.fn ratio) := by
  intro a b x h1 h2
  cases dn with
  | euclidean =>
    unfold DistName.fn32 DistName.fn
    exact SameInt.both fun d _ => SameInt.ok ⟨rfl, rfl⟩
  | euclideanDtw =>
    unfold DistName.fn32 DistName.fn
    simp only
    rw [warpedDistance32_eq hb h1 h2]
    exact SameInt.both fun d _ => SameInt.ok ⟨rfl, rfl⟩

end Onex
