import Verif.Proofs.GroupReal

/-!
# The order in which a search visits the lengths
-/

namespace Onex
open DataT Spec

section parts
variable {α : Type} [DataT α]

/-- Lines 125-130 of `generateTraverseOrder`. -/
def markStops (totalLength : Int) (s : OrderState) : OrderState :=
  let s := if s.low < 2 then { s with lowStop := true } else s
  if s.high > totalLength then { s with highStop := true } else s

/-- The part that extends the order downwards. -/
def lowHalf (ratio : α) (queryLength : Int) (s : OrderState) : Res OrderState :=
  if !s.lowStop then do
    let r ← calculateWarpingBandSize ratio queryLength
    if s.low + r ≥ queryLength then
      pure { s with order := s.order ++ [s.low], low := s.low - 1 }
    else pure { s with lowStop := true }
  else pure s

/-- The part that extends the order upwards. -/
def highHalf (ratio : α) (queryLength : Int) (s : OrderState) : Res OrderState :=
  if !s.highStop then do
    let r ← calculateWarpingBandSize ratio s.high
    if queryLength + r ≥ s.high then
      pure { s with order := s.order ++ [s.high], high := s.high + 1 }
    else pure { s with highStop := true }
  else pure s

theorem traverseStep_eq (ratio : α) (q n : Int) (s : OrderState) :
    traverseStep ratio q n s = lowHalf ratio q (markStops n s) >>= highHalf ratio q := by
  unfold traverseStep lowHalf highHalf markStops
  simp only
  generalize (if s.low < 2 then { s with lowStop := true } else s) = s1
  generalize (if s1.high > n then { s1 with highStop := true } else s1) = s2
  cases s2.lowStop
  · simp only [Bool.not_false, if_true]
    cases calculateWarpingBandSize ratio q with
    | ok r =>
      simp only [Res.bind_ok]
      split <;> rfl
    | throw e => rfl
    | ub w => rfl
  · simp only [Bool.not_true]
    rfl

end parts

variable {ρ : Rounding}

/-- Length `L` fits the query length `q`: the difference is within the band of the longer. -/
def Fits (ρ : Rounding) (ratio : ℝ) (q L : Nat) : Prop :=
  L ≤ q + bandOf ρ ratio (max q L) ∧ q ≤ L + bandOf ρ ratio (max q L)

/-- State of the loop: the order lists the lengths strictly between `low` and `high`. -/
structure TInv (ρ : Rounding) (ratio : ℝ) (q N : Nat) (s : OrderState) : Prop where
  head : ∃ t, s.order = (q : Int) :: t
  nodup : s.order.Nodup
  mem : ∀ L : Int, L ∈ s.order ↔ s.low < L ∧ L < s.high
  low : 1 ≤ s.low ∧ s.low < q
  high : (q : Int) < s.high ∧ s.high ≤ N + 1
  fits : ∀ L : Int, L ∈ s.order → Fits ρ ratio q L.toNat
  lowStop : s.lowStop = true → s.low < 2 ∨ ¬ Fits ρ ratio q s.low.toNat
  highStop : s.highStop = true → s.high = N + 1 ∨ ¬ Fits ρ ratio q s.high.toNat

/-- What remains to be visited. -/
def remaining (N : Nat) (s : OrderState) : Nat :=
  s.low.toNat + (N + 1 - s.high).toNat + (if s.lowStop then 0 else 1) + (if s.highStop then 0 else 1)

variable {ratio : ℝ} {q N : Nat}

theorem markStops_spec {s : OrderState} (h : TInv ρ ratio q N s) :
    TInv ρ ratio q N (markStops N s) ∧ remaining N (markStops N s) ≤ remaining N s ∧
      (s.lowStop = false → (markStops N s).lowStop = true → remaining N (markStops N s) < remaining N s) ∧
      (s.highStop = false → (markStops N s).highStop = true → remaining N (markStops N s) < remaining N s) ∧
      ((markStops N s).lowStop = false → 2 ≤ (markStops N s).low) ∧
      ((markStops N s).highStop = false → (markStops N s).high ≤ N) := by
  obtain ⟨order, low, high, ls, hs⟩ := s
  obtain ⟨h1, h2, h3, h4, h5, h6, h7, h8⟩ := h
  simp only at *
  unfold markStops remaining
  by_cases c1 : low < 2 <;> by_cases c2 : high > N <;> simp only [c1, c2, if_true, if_false]
  · refine ⟨⟨h1, h2, h3, h4, h5, h6, fun _ => Or.inl c1, fun _ => Or.inl (by simp only; omega)⟩, ?_, ?_, ?_, ?_, ?_⟩ <;>
      cases ls <;> cases hs <;> simp
    all_goals omega
  · refine ⟨⟨h1, h2, h3, h4, h5, h6, fun _ => Or.inl c1, h8⟩, ?_, ?_, ?_, ?_, ?_⟩ <;>
      cases ls <;> cases hs <;> simp <;> omega
  · refine ⟨⟨h1, h2, h3, h4, h5, h6, h7, fun _ => Or.inl (by simp only; omega)⟩, ?_, ?_, ?_, ?_, ?_⟩ <;>
      cases ls <;> cases hs <;> simp <;> omega
  · refine ⟨⟨h1, h2, h3, h4, h5, h6, h7, h8⟩, ?_, ?_, ?_, ?_, ?_⟩ <;>
      cases ls <;> cases hs <;> simp <;> omega

theorem fits_low {L : Int} (h1 : 1 ≤ L) (h2 : L < q) :
    Fits ρ ratio q L.toNat ↔ L + bandOf ρ ratio q ≥ q := by
  unfold Fits
  have : max q L.toNat = q := by omega
  rw [this]
  omega

theorem fits_high {L : Int} (h2 : (q : Int) < L) :
    Fits ρ ratio q L.toNat ↔ q + (bandOf ρ ratio L.toNat : Int) ≥ L := by
  unfold Fits
  have : max q L.toNat = L.toNat := by omega
  rw [this]
  omega

theorem lowHalf_spec (hfit : ∀ l ≤ N, RatioOk ρ ratio l) (hq : 2 ≤ q) (hqN : q ≤ N) {s : OrderState}
    (h : TInv ρ ratio q N s) (h2 : s.lowStop = false → 2 ≤ s.low) :
    (lowHalf (F.fin ratio : F ρ) q s).Ensures fun s' => TInv ρ ratio q N s' ∧ remaining N s' ≤ remaining N s ∧
      (s.lowStop = false → remaining N s' < remaining N s) ∧ s'.high = s.high ∧ s'.highStop = s.highStop := by
  unfold lowHalf
  cases hls : s.lowStop
  · simp only [Bool.not_false, if_true]
    have h2 := h2 hls
    rw [band_ok (hfit q hqN) (by omega), Res.bind_ok]
    have hlow := h.low
    have hf := fits_low (ρ := ρ) (ratio := ratio) (by omega : 1 ≤ s.low) hlow.2
    by_cases hc : s.low + (bandOf ρ ratio q : Int) ≥ q
    · rw [if_pos hc]
      simp only [Res.pure_eq, Res.ensures_ok]
      refine ⟨⟨?_, ?_, ?_, by simp only; omega, h.high, ?_, ?_, h.highStop⟩, ?_, ?_, trivial, trivial⟩
      · obtain ⟨t, ht⟩ := h.head
        exact ⟨t ++ [s.low], by simp [ht]⟩
      · refine List.nodup_append.mpr ⟨h.nodup, by simp, ?_⟩
        intro a ha b hb
        rw [List.mem_singleton] at hb
        have := (h.mem a).mp ha
        omega
      · intro L
        simp only [List.mem_append, h.mem, List.mem_singleton]
        have := h.high
        omega
      · intro L hL
        simp only [List.mem_append, List.mem_singleton] at hL
        rcases hL with hL | rfl
        · exact h.fits L hL
        · exact hf.mpr hc
      · intro e
        simp at e
      · simp only [remaining, hls]
        omega
      · intro _
        simp only [remaining, hls]
        omega
    · rw [if_neg hc]
      simp only [Res.pure_eq, Res.ensures_ok]
      refine ⟨⟨h.head, h.nodup, h.mem, h.low, h.high, h.fits, fun _ => Or.inr (fun e => hc (hf.mp e)), h.highStop⟩,
        ?_, ?_, trivial, trivial⟩
      · simp only [remaining, hls]
        simp
      · intro _
        simp only [remaining, hls]
        simp
  · simp only [Bool.not_true]
    exact ⟨s, rfl, h, le_refl _, by simp, rfl, rfl⟩

theorem highHalf_spec (hfit : ∀ l ≤ N, RatioOk ρ ratio l) {s : OrderState}
    (h : TInv ρ ratio q N s) (h2 : s.highStop = false → s.high ≤ N) :
    (highHalf (F.fin ratio : F ρ) q s).Ensures fun s' => TInv ρ ratio q N s' ∧ remaining N s' ≤ remaining N s ∧
      (s.highStop = false → remaining N s' < remaining N s) := by
  unfold highHalf
  cases hls : s.highStop
  · simp only [Bool.not_false, if_true]
    have h2 := h2 hls
    have hhigh := h.high
    have hcast : s.high = (s.high.toNat : Int) := by omega
    have hband : calculateWarpingBandSize (F.fin ratio : F ρ) s.high = .ok (bandOf ρ ratio s.high.toNat : Int) := by
      have := band_ok (hfit s.high.toNat (by omega)) (by omega)
      rwa [← hcast] at this
    rw [hband, Res.bind_ok]
    have hf := fits_high (ρ := ρ) (ratio := ratio) hhigh.1
    by_cases hc : (q : Int) + (bandOf ρ ratio s.high.toNat : Int) ≥ s.high
    · rw [if_pos hc]
      simp only [Res.pure_eq, Res.ensures_ok]
      refine ⟨⟨?_, ?_, ?_, h.low, by simp only; omega, ?_, h.lowStop, ?_⟩, ?_, ?_⟩
      · obtain ⟨t, ht⟩ := h.head
        exact ⟨t ++ [s.high], by simp [ht]⟩
      · refine List.nodup_append.mpr ⟨h.nodup, by simp, ?_⟩
        intro a ha b hb
        rw [List.mem_singleton] at hb
        have := (h.mem a).mp ha
        omega
      · intro L
        simp only [List.mem_append, h.mem, List.mem_singleton]
        have := h.low
        omega
      · intro L hL
        simp only [List.mem_append, List.mem_singleton] at hL
        rcases hL with hL | rfl
        · exact h.fits L hL
        · exact hf.mpr hc
      · intro e
        simp at e
      · simp only [remaining, hls]
        omega
      · intro _
        simp only [remaining, hls]
        omega
    · rw [if_neg hc]
      simp only [Res.pure_eq, Res.ensures_ok]
      refine ⟨⟨h.head, h.nodup, h.mem, h.low, h.high, h.fits, h.lowStop, fun _ => Or.inr (fun e => hc (hf.mp e))⟩,
        ?_, ?_⟩
      · simp only [remaining, hls]
        simp
      · intro _
        simp only [remaining, hls]
        simp
  · simp only [Bool.not_true]
    exact ⟨s, rfl, h, le_refl _, by simp⟩

theorem traverseStep_spec (hfit : ∀ l ≤ N, RatioOk ρ ratio l) (hq : 2 ≤ q) (hqN : q ≤ N) {s : OrderState}
    (h : TInv ρ ratio q N s) (hgo : (s.lowStop && s.highStop) = false) :
    (traverseStep (F.fin ratio : F ρ) q N s).Ensures fun s' => TInv ρ ratio q N s' ∧
      remaining N s' < remaining N s := by
  rw [traverseStep_eq]
  obtain ⟨m1, m2, m3, m4, m5, m6⟩ := markStops_spec h
  obtain ⟨s1, e1, l1, l2, l3, l4, l5⟩ := lowHalf_spec hfit hq hqN m1 m5
  obtain ⟨s2, e2, g1, g2, g3⟩ := highHalf_spec hfit l1 (by rw [l5, l4]; exact m6)
  rw [e1, Res.bind_ok, e2]
  refine ⟨s2, rfl, g1, ?_⟩
  rw [l5] at g3
  cases hl : s.lowStop
  · cases hl' : (markStops (N : Int) s).lowStop
    · have := l3 hl'
      omega
    · have := m3 hl hl'
      omega
  · rw [hl] at hgo
    simp only [Bool.true_and] at hgo
    cases hl' : (markStops (N : Int) s).highStop
    · have := g3 hl'
      omega
    · have := m4 hgo hl'
      omega

theorem traverseLoop_spec (hfit : ∀ l ≤ N, RatioOk ρ ratio l) (hq : 2 ≤ q) (hqN : q ≤ N) :
    ∀ (fuel : Nat) (s : OrderState), TInv ρ ratio q N s → remaining N s ≤ fuel →
      (traverseLoop (F.fin ratio : F ρ) q N fuel s).Ensures fun s' => TInv ρ ratio q N s' ∧
        s'.lowStop = true ∧ s'.highStop = true := by
  intro fuel
  induction fuel with
  | zero =>
    intro s h hr
    unfold traverseLoop
    have : (s.lowStop && s.highStop) = true := by
      simp only [remaining] at hr
      cases h1 : s.lowStop <;> cases h2 : s.highStop <;> simp [h1, h2] at hr
      rfl
    rw [if_pos this]
    simp only [Bool.and_eq_true] at this
    exact ⟨s, rfl, h, this.1, this.2⟩
  | succ fuel ih =>
    intro s h hr
    unfold traverseLoop
    cases hc : (s.lowStop && s.highStop)
    · rw [if_neg (by simp)]
      simp only
      obtain ⟨s1, e1, i1, i2⟩ := traverseStep_spec hfit hq hqN h hc
      rw [e1, Res.bind_ok]
      exact ih s1 i1 (by omega)
    · rw [if_pos rfl]
      simp only [Bool.and_eq_true] at hc
      exact ⟨s, rfl, h, hc.1, hc.2⟩

theorem fits_self (ρ : Rounding) (ratio : ℝ) (q : Nat) : Fits ρ ratio q q := by
  unfold Fits
  omega

/-- The order the code computes: `[low+1 .. high-1]` in some order, starting at the query length. -/
theorem traverse_spec (hfit : ∀ l ≤ N, RatioOk ρ ratio l) (hq : 2 ≤ q) (hqN : q ≤ N) :
    ∃ order : List Int, generateTraverseOrder (F.fin ratio : F ρ) q N = .ok order ∧
      (∃ t, order = (q : Int) :: t) ∧ order.Nodup ∧
      ∃ low high : Nat, (low : Int) < q ∧ q < high ∧ 1 ≤ low ∧ high ≤ N + 1 ∧
        (∀ L : Int, L ∈ order ↔ low < L ∧ L < high) ∧
        (∀ L : Int, L ∈ order → Fits ρ ratio q L.toNat) ∧
        (low < 2 ∨ ¬ Fits ρ ratio q low) ∧ (high = N + 1 ∨ ¬ Fits ρ ratio q high) := by
  obtain ⟨s, e, hi, h1, h2⟩ := traverseLoop_spec (ρ := ρ) (ratio := ratio) hfit hq hqN
    ((q : Int).toNat + (N : Int).toNat + 3)
    { order := [(q : Int)], low := q - 1, high := q + 1, lowStop := false, highStop := false }
    ⟨⟨[], rfl⟩, by simp, by intro L; simp only [List.mem_singleton]; omega, by simp only; omega, by simp only; omega,
      by
        intro L hL
        rw [List.mem_singleton] at hL
        subst hL
        simpa using fits_self ρ ratio q,
      by simp, by simp⟩
    (by simp only [remaining]; simp; omega)
  have hlow := hi.low
  have hhigh := hi.high
  refine ⟨s.order, ?_, hi.head, hi.nodup, s.low.toNat, s.high.toNat, by omega, by omega, by omega, by omega, ?_,
    hi.fits, ?_, ?_⟩
  · unfold generateTraverseOrder
    rw [e]
    rfl
  · intro L
    rw [hi.mem]
    omega
  · exact (hi.lowStop h1).imp (fun h => by omega) id
  · exact (hi.highStop h2).imp (fun h => by omega) id

end Onex
