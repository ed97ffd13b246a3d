import Verif.Props.Warped

/-!
# The warped distance from a single point
-/

namespace Onex
open DataT Spec

variable {ρ : Rounding}

theorem forBrkGo_okInv {σ : Type} {body : Int → σ → Res (Step σ)} (I : Int → σ → Prop) (Q : σ → Prop) :
    ∀ (k : Nat) (i : Int) (s s' : σ), I i s →
      (∀ j s, i ≤ j → j < i + k → I j s → ∀ t, body j s = .ok t → match t with
        | .next s' => I (j + 1) s'
        | .brk s' => Q s') → forBrkGo body k i s = .ok s' → I (i + k) s' ∨ Q s' := by
  intro k
  induction k with
  | zero =>
    intro i s s' h0 _ h
    simp only [forBrkGo, Res.ok.injEq] at h
    subst h
    left
    simpa using h0
  | succ k ih =>
    intro i s s' h0 hs h
    rw [forBrkGo] at h
    obtain ⟨t, ht, h⟩ := Res.bind_eq_ok.mp h
    have := hs i s le_rfl (by omega) h0 t ht
    cases t with
    | next s1 =>
      have := ih (i + 1) s1 s' this (fun j s h1 h2 => hs j s (by omega) (by omega)) h
      rwa [show i + 1 + (k : Int) = i + ((k + 1 : ℕ) : Int) by push_cast; ring] at this
    | brk s1 =>
      simp only [Res.ok.injEq] at h
      subst h
      exact .inr this

/-- One point on the left: the dropout is never looked at. -/
theorem one_left (ratio : F ρ) (x : F ρ) (b : List (F ρ)) (d d' : F ρ) : warpedDistance ratio [x] b d = warpedDistance ratio [x] b d' := by
  unfold warpedDistance
  congr 1

/-- One point on the right and more than the band on the left: a finite dropout abandons. -/
theorem one_right {r : ℕ} {a : List (F ρ)} (h : r + 1 < a.length) (y : F ρ) (d : F ρ) (hd : lt (eucInormDtw d (len a) 1) F.pinf = true) {v : F ρ}
    (hv : warpedDistanceBand (r : Int) a [y] d = .ok v) : v = F.pinf := by
  unfold warpedDistanceBand at hv
  have hl : len [y] = 1 := rfl
  have h1 : ¬ (len a = 1 ∧ len [y] = 1) := by
    simp only [len]
    omega
  simp only [if_neg h1] at hv
  obtain ⟨c0, _, hv⟩ := Res.bind_eq_ok.mp hv
  obtain ⟨x0, _, hv⟩ := Res.bind_eq_ok.mp hv
  obtain ⟨y0, _, hv⟩ := Res.bind_eq_ok.mp hv
  obtain ⟨c1, _, hv⟩ := Res.bind_eq_ok.mp hv
  obtain ⟨c2, _, hv⟩ := Res.bind_eq_ok.mp hv
  obtain ⟨c3, _, hv⟩ := Res.bind_eq_ok.mp hv
  obtain ⟨⟨c4, dr⟩, hloop, hv⟩ := Res.bind_eq_ok.mp hv
  have hdr : dr = true := by
    unfold forBrk at hloop
    have := forBrkGo_okInv (fun j (_ : Mat (F ρ) × Bool) => j ≤ r + 1) (fun s => s.2 = true) _ _ _ _ (by show (1 : Int) ≤ r + 1; omega) (by
      intro j s h2 h3 hI t ht
      unfold warpedRow at ht
      rw [hl] at ht
      obtain ⟨⟨c, best⟩, hc, hq⟩ := Res.bind_eq_ok.mp ht
      cases t with
      | next s' =>
        show j + 1 ≤ (r : Int) + 1
        by_contra hj
        obtain rfl : j = r + 1 := by omega
        rw [forInt_of_le (by omega), Res.ok.injEq, Prod.mk.injEq] at hc
        rw [← hc.2] at hq
        have hg : gt (inf : F ρ) (eucInormDtw d (len a) 1) = true := hd
        simp [hg] at hq
      | brk s' =>
        show s'.2 = true
        simp only at hq
        split at hq
        · simp only [Res.pure_eq, Res.ok.injEq, Step.brk.injEq] at hq
          rw [← hq]
        · simp at hq) hloop
    rcases this with h2 | h2
    · simp only [len] at h2
      omega
    · exact h2
  subst hdr
  simp only [if_true, Res.pure_eq, Res.bind_ok, Res.ok.injEq] at hv
  rw [← hv, inf_F]
  exact eucNormDtw_pinf (by rw [hl]; omega)

theorem dp_row0 (e : ℕ → ℕ → ℝ) (r j : ℕ) : dp Rounding.exact e r 0 j = ∑ q ∈ Finset.range (j + 1), e 0 q := by
  induction j with
  | zero => simp [dp]
  | succ j ih => rw [Finset.sum_range_succ, ← ih, dp, Rounding.exact_f]

theorem sum_getD (f : ℝ → ℝ) (b : List ℝ) : ∑ q ∈ Finset.range b.length, f (b.getD q 0) = (b.map f).sum := by
  induction b with
  | nil => simp
  | cons y b ih =>
    rw [List.length_cons, Finset.sum_range_succ', List.map_cons, List.sum_cons, ← ih, add_comm]
    rfl

/-- The value with one point: all squared differences are summed. -/
theorem wfin_one (r : ℕ) (x : ℝ) (b : List ℝ) (hn : 1 ≤ b.length) :
    wfin Rounding.exact r [x] b = Real.sqrt (b.map fun y => (x - y) ^ 2).sum / (2 * b.length) := by
  unfold wfin
  have e1 : max [x].length b.length = b.length := by simp; omega
  have e2 : [x].length - 1 = 0 := rfl
  rw [e1, e2, dp_row0, Nat.sub_add_cancel hn]
  simp only [Rounding.exact_f]
  have e3 : ∑ q ∈ Finset.range b.length, ecost Rounding.exact [x] b 0 q = (b.map fun y => (x - y) ^ 2).sum := by
    rw [← sum_getD fun y => (x - y) ^ 2]
    refine Finset.sum_congr rfl fun i _ => ?_
    simp [ecost, ed, pow_two]
  rw [e3]
  push_cast
  ring

end Onex
