import Verif.Proofs.UcrSafe
import Verif.Proofs.Int32Dist
import Verif.Model.Ucr32

/-!
# The UCR search with 32-bit `int` against the search with unbounded ones
-/

namespace Onex
open DataT Spec

set_option linter.unusedSectionVars false

variable {α : Type} [DataT α]

/-- Where the first is defined, the second agrees. -/
def Ref {β : Type} (x32 x : Res β) : Prop := ∀ v, x32 = .ok v → x = .ok v

namespace Ref

variable {β γ : Type}

theorem refl (x : Res β) : Ref x x := fun _ h => h

theorem bind {x32 x : Res β} {f32 f : β → Res γ} (hx : Ref x32 x) (hf : ∀ a, x = .ok a → Ref (f32 a) (f a)) : Ref (x32 >>= f32) (x >>= f) := by
  intro v h
  obtain ⟨a, h1, h2⟩ := Res.bind_eq_ok.mp h
  rw [hx a h1, Res.bind_ok]
  exact hf a (hx a h1) v h2

theorem ck {e : Int} {x32 x : Res β} (h : inIntRange e → Ref x32 x) : Ref (Onex.ck e >>= fun _ => x32) x := by
  intro v hv
  obtain ⟨_, h1, h2⟩ := Res.bind_eq_ok.mp hv
  unfold Onex.ck at h1
  split at h1
  · rename_i hr
    exact h hr v h2
  · cases h1

theorem ite {c : Prop} [Decidable c] {a32 a b32 b : Res β} (h1 : c → Ref a32 a) (h2 : ¬ c → Ref b32 b) :
    Ref (if c then a32 else b32) (if c then a else b) := by
  split
  · exact h1 ‹_›
  · exact h2 ‹_›

theorem forIntGo {σ : Type} {b32 b : Int → σ → Res σ} (h : ∀ i s, Ref (b32 i s) (b i s)) :
    ∀ (n : ℕ) (i : Int) (s : σ), Ref (Onex.forIntGo b32 n i s) (Onex.forIntGo b n i s)
  | 0, _, s => refl _
  | n + 1, i, s => by
    unfold Onex.forIntGo
    exact bind (h i s) fun a _ => forIntGo h n (i + 1) a

theorem forInt {σ : Type} {b32 b : Int → σ → Res σ} (h : ∀ i s, Ref (b32 i s) (b i s)) (lo hi : Int) (s : σ) :
    Ref (Onex.forInt lo hi s b32) (Onex.forInt lo hi s b) := forIntGo h _ _ _

end Ref

theorem ck_ok {e : Int} (h : inIntRange e) : ck e = .ok () := by
  unfold ck
  rw [if_pos h]

theorem inInt {e : Int} (h0 : 0 ≤ e) (h1 : e ≤ 2147483647) : inIntRange e := by
  unfold inIntRange
  simp only [decide_eq_true_eq]
  omega

theorem prepare32_eq {junk : α} {order : List Int} {file : List α} {m r : Int} (hm0 : 0 ≤ m) (hm : m ≤ intLimit) (hr : 0 ≤ r) (hr' : r < m) :
    prepare32 junk order file m r = prepare junk order file m r := by
  unfold prepare32 prepare
  simp only [lowerUpperLemire32_eq hm0 hm (show -1 ≤ r by omega) (show r ≤ m - 1 by omega)]

theorem candidate32_ref (Q : UcrQuery α) (lBuff uBuff : List α) (mean std : α) (j off base pos : Int) (s : UcrState α) :
    Ref (ucrCandidate32 Q lBuff uBuff mean std j off base pos s) (ucrCandidate Q lBuff uBuff mean std j off pos s) := by
  unfold ucrCandidate32 ucrCandidate
  refine Ref.bind (Ref.refl _) fun _ _ => Ref.ite (fun _ => ?_) fun _ => Ref.refl _
  refine Ref.bind (Ref.refl _) fun _ _ => Ref.ite (fun _ => ?_) fun _ => Ref.refl _
  refine Ref.bind (Ref.refl _) fun _ _ => ?_
  refine Ref.bind (Ref.refl _) fun _ _ => Ref.ite (fun _ => ?_) fun _ => Ref.refl _
  refine Ref.bind (Ref.refl _) fun _ _ => ?_
  refine Ref.bind (Ref.refl _) fun _ _ => Ref.ite (fun _ => ?_) fun _ => Ref.refl _
  exact Ref.ck fun _ => Ref.refl _

theorem candidate32_eq {base : Int} (h : inIntRange base) (Q : UcrQuery α) (lBuff uBuff : List α) (mean std : α) (j off pos : Int) (s : UcrState α) :
    ucrCandidate32 Q lBuff uBuff mean std j off base pos s = ucrCandidate Q lBuff uBuff mean std j off pos s := by
  unfold ucrCandidate32 ucrCandidate
  simp only [ck_ok h, Res.bind_ok]

theorem point32_ref (epoch : Int) (Q : UcrQuery α) (buffer lBuff uBuff : List α) (it i : Int) (s : UcrState α) :
    Ref (ucrPoint32 epoch Q buffer lBuff uBuff it i s) (ucrPoint epoch Q buffer lBuff uBuff it i s) := by
  unfold ucrPoint32 ucrPoint
  refine Ref.bind (Ref.refl _) fun _ _ => ?_
  refine Ref.bind (Ref.refl _) fun _ _ => ?_
  refine Ref.bind (Ref.refl _) fun _ _ => ?_
  refine Ref.ite (fun _ => ?_) fun _ => Ref.refl _
  exact Ref.bind (candidate32_ref _ _ _ _ _ _ _ _ _ _) fun _ _ => Ref.refl _

theorem point32_eq {epoch it : Int} {Q : UcrQuery α} (h : inIntRange (it * (epoch - Q.m + 1))) (buffer lBuff uBuff : List α) :
    ucrPoint32 epoch Q buffer lBuff uBuff it = ucrPoint epoch Q buffer lBuff uBuff it := by
  funext i s
  unfold ucrPoint32 ucrPoint
  simp only [candidate32_eq h]

theorem loop32 {N m r : ℕ} {Q : UcrQuery α} {n : Int} (hQ : QuerySized Q m r) (hm : 3 ≤ m) (hr : r < m) (hN : m ≤ N) (hN' : (N : Int) ≤ intLimit)
    (hdot : N - m + 1 ≤ 1000000) : ∀ (fuel : ℕ) (x : UcrRun α), RoundOk (N : Int) m n x →
      Ref (ucrLoop32 N Q fuel x) (ucrLoop N Q fuel x) ∧ (n ≤ 2147483647 → ucrLoop32 N Q fuel x = ucrLoop N Q fuel x) := by
  intro fuel
  induction fuel with
  | zero => exact fun x _ => ⟨Ref.refl _, fun _ => rfl⟩
  | succ fuel ih =>
    intro x h
    have hit := h.it
    have hW : 0 ≤ x.it * ((N : Int) - m + 1) := mul_nonneg hit (by omega)
    have hWi : x.it ≤ x.it * ((N : Int) - m + 1) := by
      have : x.it * 1 ≤ x.it * ((N : Int) - m + 1) := mul_le_mul_of_nonneg_left (by omega) hit
      omega
    have hW0 : x.it = 0 → x.it * ((N : Int) - m + 1) = 0 := by intro e; rw [e]; ring
    have hW1 : (x.it + 1) * ((N : Int) - m + 1) = x.it * ((N : Int) - m + 1) + ((N : Int) - m + 1) := by ring
    unfold ucrLoop32 ucrLoop
    rw [hQ.hm, hQ.hr]
    obtain ⟨⟨b1, rest1⟩, e1, a1, a2⟩ := fillFirst_def (it := x.it) (rest := x.rest) (by omega : (1 : Int) ≤ m) (by omega) h.buffer
    rw [e1]
    simp only [Res.bind_ok]
    dsimp only at a1 a2
    obtain ⟨⟨b, rest, ep⟩, e2, c1, c2, c3⟩ := fillRest_def (rest := rest1) (by omega : (1 : Int) ≤ m) (by omega) a1
    rw [e2]
    simp only [Res.bind_ok]
    dsimp only at c1 c2 c3
    have hrest : x.it * ((N : Int) - m + 1) + (m - 1) + rest1.length = Max.max n (m - 1) := by
      by_cases e : x.it = 0
      · have := h.first e
        rw [if_pos e] at a2
        rw [hW0 e]
        omega
      · have := h.next e
        rw [if_neg e] at a2
        omega
    have hrep := h.reported
    by_cases hstop : ep ≤ (m : Int) - 1
    · simp only [if_pos hstop]
      exact ⟨Ref.refl _, fun _ => trivial⟩
    simp only [if_neg hstop]
    obtain ⟨ep, rfl⟩ := Int.eq_ofNat_of_zero_le (show 0 ≤ ep by omega)
    have hlb := h.lBuff
    have hub := h.uBuff
    simp only [lowerUpperLemire32_eq (show 0 ≤ (ep : Int) by omega) (show (ep : Int) ≤ intLimit by omega) (show -1 ≤ (r : Int) by omega)
      (show (r : Int) ≤ ep - 1 by omega)]
    obtain ⟨⟨l, u⟩, e3, hl, hu⟩ := lemire_def (t := b) (l := x.lBuff) (u := x.uBuff) (n := ep) (r := r) (by omega) (by omega) (by omega) (by omega)
    rw [e3]
    simp only [Res.bind_ok]
    dsimp only at hl hu
    simp only [if_neg (dot_def (N := (N : Int)) (m := m) (by omega) (by omega))]
    obtain ⟨s1, s2, s3, s4, s5⟩ := h.sized
    have hchunk : (forInt 0 (ep : Int) { x.s with ex := zero, ex2 := zero } (ucrPoint (N : Int) Q b l u x.it)).Ensures fun s =>
        StateSized s m ∧ Reported s (x.it * ((N : Int) - m + 1) + Max.max (ep : Int) (m - 1) - m) := by
      refine forInt_ensures (fun i (s : UcrState α) => StateSized s m ∧
        Reported s (x.it * ((N : Int) - m + 1) + Max.max i (m - 1) - m)) (by omega) ⟨⟨s1, s2, s3, s4, s5⟩, hrep.le rfl rfl (by omega)⟩ ?_
      rintro i s i0 i1 ⟨k1, k2⟩
      exact point_def hQ (by omega) (by omega) k1 i0 (by omega) (by omega) (by omega) hW k2
    obtain ⟨s, e4, k1, k2⟩ := hchunk
    have hround : ¬ (ep : Int) < N → RoundOk (N : Int) m n
        { buffer := b, lBuff := l, uBuff := u, rest := rest, it := x.it + 1, ep := (ep : Int), s := s } := by
      intro hlt
      refine ⟨?_, c1, ?_, ?_, k1, ?_, ?_, ?_⟩
      · dsimp only
        omega
      · dsimp only
        omega
      · dsimp only
        omega
      · dsimp only
        omega
      · intro _
        dsimp only
        rw [hW1]
        omega
      · dsimp only
        rw [hW1]
        exact k2.le rfl rfl (by omega)
    constructor
    · refine Ref.bind (Ref.forInt (fun i s => point32_ref _ _ _ _ _ _ i s) _ _ _) fun s' hs' => ?_
      rw [e4] at hs'
      cases hs'
      refine Ref.ite (fun _ => Ref.refl _) fun hlt => Ref.ck fun _ => (ih _ (hround hlt)).1
    · intro hn
      have hir : inIntRange (x.it * ((N : Int) - Q.m + 1)) := by
        rw [hQ.hm]
        exact inInt (by omega) (by omega)
      rw [point32_eq hir, e4]
      simp only [Res.bind_ok]
      split
      · rfl
      · rename_i hlt
        rw [ck_ok (inInt (by omega) (by omega)), Res.bind_ok]
        exact (ih _ (hround hlt)).2 hn

theorem calculate32_ref {m r : ℕ} {junk : α} {order : List Int} {data query : List α} (ho : Indices order m) (hm : 3 ≤ m) (hm' : m ≤ 100000) (hr : r < m)
    (y : Int × α × Int) (hy : calculate32 junk order data query m r = .ok y) : calculate junk order data query m r = .ok y ∧ inIntRange y.2.2 := by
  unfold calculate32 at hy
  rw [prepare32_eq (by omega) (by unfold intLimit; omega) (by omega) (by omega)] at hy
  obtain ⟨Q, e, hQ⟩ := prepare_def (junk := junk) (file := query) ho hr
  unfold calculate calculateWith
  rw [e] at hy ⊢
  simp only [Res.bind_ok] at hy ⊢
  obtain ⟨x, h1, h2⟩ := Res.bind_eq_ok.mp hy
  have h3 := (loop32 (N := 100000) (n := data.length) hQ hm hr hm' (by unfold intLimit; omega) (by omega) _ _ ⟨le_rfl, by rw [List.length_replicate], by rw [List.length_replicate], by rw [List.length_replicate],
    ⟨by simp, by simp, by simp, by simp, by simp⟩, fun _ => rfl, fun h => absurd rfl h, Or.inl ⟨rfl, rfl⟩⟩).1 x h1
  have hx : (List.replicate (Int.toNat 100000) junk) = List.replicate 100000 junk := rfl
  rw [hx]
  obtain ⟨_, h4, h2⟩ := Res.bind_eq_ok.mp h2
  obtain ⟨_, h5, h2⟩ := Res.bind_eq_ok.mp h2
  cases h2
  refine ⟨?_, ?_⟩
  · refine (congrArg (· >>= _) h3).trans ?_
    rfl
  · unfold ck at h5
    split at h5
    · assumption
    · cases h5

theorem calculate32_eq {m r : ℕ} {junk : α} {order : List Int} {data query : List α} (ho : Indices order m) (hm : 3 ≤ m) (hm' : m ≤ 100000) (hr : r < m)
    (hd : data.length ≤ 2147483647) : calculate32 junk order data query m r = calculate junk order data query m r := by
  unfold calculate32
  rw [prepare32_eq (by omega) (by unfold intLimit; omega) (by omega) (by omega)]
  obtain ⟨Q, e, hQ⟩ := prepare_def (junk := junk) (file := query) ho hr
  unfold calculate calculateWith
  rw [e]
  simp only [Res.bind_ok]
  have hstart : RoundOk ((100000 : ℕ) : Int) m (data.length : Int)
      { buffer := List.replicate 100000 junk, lBuff := List.replicate 100000 junk, uBuff := List.replicate 100000 junk, rest := data, it := 0, ep := 0,
        s := { t := List.replicate (2 * (m : Int)).toNat junk, ex := zero, ex2 := zero, cb := List.replicate (m : Int).toNat zero,
               cb1 := List.replicate (m : Int).toNat zero, cb2 := List.replicate (m : Int).toNat zero,
               tz := List.replicate (m : Int).toNat junk, bsf := infTrillion, loc := 0 } } :=
    ⟨le_rfl, by rw [List.length_replicate], by rw [List.length_replicate], by rw [List.length_replicate], ⟨by simp, by simp, by simp, by simp, by simp⟩, fun _ => rfl, fun h => absurd rfl h, Or.inl ⟨rfl, rfl⟩⟩
  have h3 := (loop32 (N := 100000) (n := data.length) hQ hm hr hm' (by unfold intLimit; omega) (by omega) (data.length + 2) _ hstart).2 (by omega)
  obtain ⟨y, h4, h5, h6, h7, _⟩ := loop_def (N := 100000) (n := data.length) hQ hm hr hm' (by omega) (data.length + 2) _ hstart (by simp)
  have h8 : 0 ≤ y.it * (((100000 : ℕ) : Int) - m + 1) := mul_nonneg h5 (by omega)
  have ec : ((100000 : ℕ) : Int) = 100000 := rfl
  rw [ec] at h6 h8
  rw [h4] at h3
  refine (congrArg (· >>= _) h3).trans ?_
  refine Eq.trans ?_ (congrArg (· >>= _) h4).symm
  simp only [Res.bind_ok]
  rw [ck_ok (inInt (by omega) (by omega)), ck_ok (inInt (by omega) (by omega))]
  rfl

end Onex
