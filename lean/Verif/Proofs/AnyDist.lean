import Verif.Proofs.Envelope
import Verif.Model.Distance

/-!
# The distances are defined for every number type and every value

Which cells of which buffers are touched does not depend on comparisons of values in any harmful way, so
not-a-number and infinities cannot make a distance undefined.
-/

namespace Onex
open DataT

set_option linter.unusedSectionVars false

variable {α : Type} [DataT α]

/-- A `for` loop whose body keeps a property that does not mention the counter. -/
theorem forInt_keep {σ : Type} {lo hi : Int} {s : σ} {body : Int → σ → Res σ} (I : σ → Prop) (h0 : I s)
    (hs : ∀ j s, lo ≤ j → j < hi → I s → (body j s).Ensures I) : (forInt lo hi s body).Ensures I := by
  by_cases h : lo ≤ hi
  · exact forInt_ensures (fun _ => I) h h0 hs
  · rw [forInt_of_le (by omega)]
    exact ⟨s, rfl, h0⟩

/-- The same with `break`. -/
theorem forBrk_keep {σ : Type} {lo hi : Int} {s : σ} {body : Int → σ → Res (Step σ)} (I : σ → Prop) (h0 : I s)
    (hs : ∀ j s, lo ≤ j → j < hi → I s → (body j s).Ensures fun
        | .next s' => I s'
        | .brk s' => I s') : (forBrk lo hi s body).Ensures I := by
  by_cases h : lo ≤ hi
  · refine (forBrk_ensures (fun _ => I) I h h0 hs).mono ?_
    rintro s (h | h) <;> exact h
  · rw [forBrk_of_le (by omega)]
    exact ⟨s, rfl, h0⟩

theorem tsGet_defined {x : List α} {i : Int} (h0 : 0 ≤ i) (h1 : i < len x) : ∃ v, tsGet x i = .ok v := by
  unfold tsGet
  rw [if_neg (by omega)]
  obtain ⟨v, h, _⟩ := vget_ok h0 h1
  exact ⟨v, h⟩

theorem mget_defined {c : Mat α} {m n : Nat} (hc : IsMat c m n) {i j : Int} (hi0 : 0 ≤ i) (hi : i < m) (hj0 : 0 ≤ j)
    (hj : j < n) : ∃ v, mget c i j = .ok v := by
  obtain ⟨i, rfl⟩ := Int.eq_ofNat_of_zero_le hi0
  obtain ⟨j, rfl⟩ := Int.eq_ofNat_of_zero_le hj0
  exact mget_ok hc (by omega) (by omega)

theorem mset_defined {c : Mat α} {m n : Nat} (hc : IsMat c m n) {i j : Int} (hi0 : 0 ≤ i) (hi : i < m) (hj0 : 0 ≤ j)
    (hj : j < n) (v : α) : ∃ c', mset c i j v = .ok c' ∧ IsMat c' m n := by
  obtain ⟨i, rfl⟩ := Int.eq_ofNat_of_zero_le hi0
  obtain ⟨j, rfl⟩ := Int.eq_ofNat_of_zero_le hj0
  obtain ⟨c', h1, h2, _⟩ := mset_ok hc (i := i) (j := j) (by omega) (by omega) v
  exact ⟨c', h1, h2⟩

/-- The conversion of the band to an integer succeeds for lengths up to `n` (a matter of the ratio, not of
the data). -/
def BandOk (ratio : α) (n : Nat) : Prop :=
  ∃ r : Nat, calculateWarpingBandSize ratio (n : Int) = .ok (r : Int)

section warped
variable {a b : List α}

theorem warpedCell_defined {r i j : Int} {s : Mat α × α} (hi1 : 1 ≤ i) (hi : i < len a) (hj0 : 0 ≤ j) (hj : j < len b)
    (hs : IsMat s.1 a.length b.length) :
    (warpedCell a b r i j s).Ensures fun s' => IsMat s'.1 a.length b.length := by
  obtain ⟨cost, best⟩ := s
  simp only [len] at hi hj
  unfold warpedCell
  simp only at hs ⊢
  split
  · obtain ⟨v, hv⟩ := mget_defined hs (i := i) (j := j) (by omega) (by omega) (by omega) (by omega)
    rw [hv]
    exact ⟨_, rfl, hs⟩
  · rename_i hj1
    obtain ⟨v2, h2⟩ := mget_defined hs (i := i - 1) (j := j - 1) (by omega) (by omega) (by omega) (by omega)
    obtain ⟨v4, h4⟩ := mget_defined hs (i := i - 1) (j := j) (by omega) (by omega) (by omega) (by omega)
    obtain ⟨v5, h5⟩ := mget_defined hs (i := i) (j := j - 1) (by omega) (by omega) (by omega) (by omega)
    obtain ⟨x, hx⟩ := tsGet_defined (x := a) (i := i) (by omega) (by simp only [len]; omega)
    obtain ⟨y, hy⟩ := tsGet_defined (x := b) (i := j) (by omega) (by simp only [len]; omega)
    have fin : ∀ p : α, (mset cost i j (add p (euc x y)) >>= fun c =>
        Res.ok (c, DataT.min best (add p (euc x y)))).Ensures fun s' => IsMat s'.1 a.length b.length := by
      intro p
      obtain ⟨c', hc1, hc2⟩ := mset_defined hs (i := i) (j := j) (by omega) (by omega) (by omega) (by omega)
        (add p (euc x y))
      rw [hc1, Res.bind_ok]
      exact ⟨_, rfl, hc2⟩
    simp only [h2, h4, h5, hx, hy, Res.bind_ok, Res.pure_eq]
    repeat' split
    all_goals exact fin _

theorem warpedBand_defined {r : Nat} (hm : 1 ≤ a.length) (hn : 1 ≤ b.length) (dropout : α) :
    ∃ v, warpedDistanceBand (r : Int) a b dropout = .ok v := by
  have hm' : 1 ≤ len a := by simp only [len]; omega
  have hn' : 1 ≤ len b := by simp only [len]; omega
  obtain ⟨x, hx⟩ := tsGet_defined (x := a) (i := 0) (by omega) (by omega)
  obtain ⟨y, hy⟩ := tsGet_defined (x := b) (i := 0) (by omega) (by omega)
  unfold warpedDistanceBand
  simp only
  split
  · rw [hx, Res.bind_ok, hy]
    exact ⟨_, rfl⟩
  · have h0 : IsMat (List.replicate (len a).toNat (List.replicate (len b).toNat (zero : α))) a.length b.length := by
      have := isMat_replicate a.length b.length (zero : α)
      simpa [len] using this
    obtain ⟨c1, e1, m1⟩ := mset_defined h0 (i := len a - 1) (j := len b - 1) (by omega) (by simp only [len]; omega)
      (by omega) (by simp only [len]; omega) inf
    obtain ⟨c2, e2, m2⟩ := mset_defined m1 (i := 0) (j := 0) (by omega) (by omega) (by omega) (by omega) (euc x y)
    rw [e1, Res.bind_ok, hx, Res.bind_ok, hy, Res.bind_ok, e2, Res.bind_ok]
    have key : ∀ z : Res α, z.Ensures (fun _ => True) → ∃ v, z = .ok v := by
      rintro z ⟨v, h, _⟩
      exact ⟨v, h⟩
    apply key
    refine Res.Ensures.bind (forInt_keep (fun c => IsMat c a.length b.length) m2 ?_) ?_
    · intro i c hi1 hi2 hc
      simp only [len] at hi2
      obtain ⟨p, hp⟩ := mget_defined hc (i := i - 1) (j := 0) (by omega) (by omega) (by omega) (by omega)
      obtain ⟨x', hx'⟩ := tsGet_defined (x := a) (i := i) (by omega) (by simp only [len]; omega)
      obtain ⟨c', g1, g2⟩ := mset_defined hc (i := i) (j := 0) (by omega) (by omega) (by omega) (by omega)
        (add p (euc x' y))
      simp only [hp, hx', Res.bind_ok]
      exact ⟨c', g1, g2⟩
    intro c3 m3
    refine Res.Ensures.bind (forInt_keep (fun c => IsMat c a.length b.length) m3 ?_) ?_
    · intro j c hj1 hj2 hc
      simp only [len] at hj2
      obtain ⟨p, hp⟩ := mget_defined hc (i := 0) (j := j - 1) (by omega) (by omega) (by omega) (by omega)
      obtain ⟨y', hy'⟩ := tsGet_defined (x := b) (i := j) (by omega) (by simp only [len]; omega)
      obtain ⟨c', g1, g2⟩ := mset_defined hc (i := 0) (j := j) (by omega) (by omega) (by omega) (by omega)
        (add p (euc x y'))
      simp only [hp, hy', Res.bind_ok]
      exact ⟨c', g1, g2⟩
    intro c4 m4
    refine Res.Ensures.bind (forBrk_keep (fun s : Mat α × Bool => IsMat s.1 a.length b.length) m4 ?_) ?_
    · intro i s hi1 hi2 hs
      unfold warpedRow
      refine Res.Ensures.bind (forInt_keep (fun s : Mat α × α => IsMat s.1 a.length b.length) hs ?_) ?_
      · intro j s' hj1 hj2 hs'
        exact warpedCell_defined hi1 hi2 (by omega) (by omega) hs'
      · rintro ⟨c5, best⟩ m5
        simp only
        split
        · exact ⟨_, rfl, m5⟩
        · exact ⟨_, rfl, m5⟩
    · rintro ⟨c6, dropped⟩ m6
      simp only
      obtain ⟨v, hv⟩ := mget_defined m6 (i := len a - 1) (j := len b - 1) (by omega) (by simp only [len]; omega)
        (by omega) (by simp only [len]; omega)
      cases dropped
      · simp only [Bool.false_eq_true, if_false]
        rw [hv]
        exact ⟨_, rfl, trivial⟩
      · exact ⟨_, rfl, trivial⟩

theorem warped_defined {ratio : α} (hr : BandOk ratio (max a.length b.length)) (hm : 1 ≤ a.length) (hn : 1 ≤ b.length)
    (dropout : α) : ∃ v, warpedDistance ratio a b dropout = .ok v := by
  obtain ⟨r, hr⟩ := hr
  have e : max (len a) (len b) = ((max a.length b.length : Nat) : Int) := by simp only [len]; omega
  unfold warpedDistance
  rw [e, hr, Res.bind_ok]
  exact warpedBand_defined hm hn dropout

theorem pairwise_defined (h : a.length = b.length) (dropout : α) : ∃ v, pairwiseDistance a b dropout = .ok v := by
  unfold pairwiseDistance
  rw [if_neg (by simp [len, h])]
  have key : ∀ z : Res α, z.Ensures (fun _ => True) → ∃ v, z = .ok v := by
    rintro z ⟨v, h, _⟩
    exact ⟨v, h⟩
  apply key
  simp only
  refine Res.Ensures.bind (P := fun _ => True) (forBrk_keep (fun _ => True) trivial ?_) ?_
  · intro i s hi1 hi2 _
    simp only [len] at hi2
    obtain ⟨x, hx⟩ := tsGet_defined (x := a) (i := i) (by omega) (by simp only [len]; omega)
    obtain ⟨y, hy⟩ := tsGet_defined (x := b) (i := i) (by omega) (by simp only [len]; omega)
    rw [hx, Res.bind_ok, hy, Res.bind_ok]
    split
    · exact ⟨_, rfl, trivial⟩
    · exact ⟨_, rfl, trivial⟩
  · intro s _
    exact ⟨_, rfl, trivial⟩

end warped

/-- A series of `n` values; the cached envelope, if any, has that length too. -/
structure Whole (s : Series α) (n : Nat) : Prop where
  len : s.vals.length = n
  cache : ∀ c, s.cache = some c → c.lower.length = n ∧ c.upper.length = n

theorem whole_mk (x : List α) : Whole (Series.mk' x) x.length := ⟨rfl, by intro c h; cases h⟩

theorem getKeogh_defined (junk : α) {s : Series α} {n : Nat} (hs : Whole s n) (hn : 1 ≤ n) (w : Nat) :
    (getKeogh junk s (w : Int)).Ensures fun p => p.1.1.length = n ∧ p.1.2.length = n ∧ p.2.vals = s.vals ∧
      Whole p.2 n := by
  have fresh : (do
      let (l, u) ← generateKeoghLU junk s.vals (w : Int)
      return ((l, u), { s with cache := some { band := (w : Int), lower := l, upper := u } }) :
        Res ((List α × List α) × Series α)).Ensures fun p =>
      p.1.1.length = n ∧ p.1.2.length = n ∧ p.2.vals = s.vals ∧ Whole p.2 n := by
    obtain ⟨lo, up, h1, h2, h3, _⟩ := generateKeoghLU_any s.vals junk (by rw [hs.len]; exact hn) w
    rw [h1, Res.bind_ok]
    rw [hs.len] at h2 h3
    refine ⟨_, rfl, h2, h3, rfl, hs.len, ?_⟩
    intro c hc
    cases hc
    exact ⟨h2, h3⟩
  unfold getKeogh
  rcases hc : s.cache with _ | c
  · exact fresh
  · simp only
    split
    · obtain ⟨h1, h2⟩ := hs.cache c hc
      exact ⟨_, rfl, h1, h2, rfl, hs⟩
    · exact fresh

theorem keoghSum_defined {b lower upper : List α} {n : Int} (hb : n ≤ len b) (hl : n ≤ len lower) (hu : n ≤ len upper)
    (idropout : α) : ∃ v, keoghSum b lower upper n idropout = .ok v := by
  have key : ∀ z : Res α, z.Ensures (fun _ => True) → ∃ v, z = .ok v := by
    rintro z ⟨v, h, _⟩
    exact ⟨v, h⟩
  apply key
  unfold keoghSum
  refine forBrk_keep (fun _ => True) trivial ?_
  intro i lb hi1 hi2 _
  obtain ⟨x, hx⟩ := tsGet_defined (x := b) (i := i) (by omega) (by omega)
  obtain ⟨u, hu', _⟩ := vget_ok (l := upper) (i := i) (by omega) (by omega)
  obtain ⟨l, hl', _⟩ := vget_ok (l := lower) (i := i) (by omega) (by omega)
  simp only [hx, hu', hl', Res.bind_ok]
  split
  · split
    · exact ⟨_, rfl, trivial⟩
    · split
      · exact ⟨_, rfl, trivial⟩
      · exact ⟨_, rfl, trivial⟩
  · exact ⟨_, rfl, trivial⟩

theorem keogh_defined (junk : α) {ratio : α} {a b : Series α} {m n : Nat} (ha : Whole a m) (hb : Whole b n)
    (hr : BandOk ratio (max m n)) (hm : 1 ≤ m) (dropout : α) :
    (keoghLowerBound junk ratio a b dropout).Ensures fun p => p.2.vals = a.vals ∧ Whole p.2 m := by
  obtain ⟨r, hr⟩ := hr
  have ea : a.length = (m : Int) := by unfold Series.length; simp only [Onex.len]; rw [ha.len]
  have eb : b.length = (n : Int) := by unfold Series.length; simp only [Onex.len]; rw [hb.len]
  unfold keoghLowerBound
  simp only
  rw [ea, eb, show max (m : Int) n = ((max m n : Nat) : Int) by omega, hr, Res.bind_ok]
  refine Res.Ensures.bind (getKeogh_defined junk ha hm r) ?_
  rintro ⟨⟨lo, up⟩, a1⟩ ⟨h1, h2, h3, h4⟩
  refine Res.Ensures.bind (getKeogh_defined junk h4 hm r) ?_
  rintro ⟨⟨lo', up'⟩, a2⟩ ⟨g1, g2, g3, g4⟩
  simp only at *
  obtain ⟨v, hv⟩ := keoghSum_defined (b := b.vals) (lower := lo) (upper := up') (n := min (m : Int) n)
    (by simp only [Onex.len, hb.len]; omega) (by simp only [Onex.len, h1]; omega)
    (by simp only [Onex.len, g2]; omega)
    (mul (mul (mul dropout (ofInt 2)) (ofInt (max a2.length n))) (mul (mul dropout (ofInt 2)) (ofInt (max a2.length n))))
  rw [hv, Res.bind_ok]
  exact ⟨_, rfl, g3.trans h3, g4⟩

theorem crossKeogh_defined (junk : α) {ratio : α} {a b : Series α} {m n : Nat} (ha : Whole a m) (hb : Whole b n)
    (hr : BandOk ratio (max m n)) (hm : 1 ≤ m) (hn : 1 ≤ n) (dropout : α) :
    (crossKeoghLowerBound junk ratio a b dropout).Ensures fun p => p.2.1.vals = a.vals ∧ p.2.2.vals = b.vals ∧
      Whole p.2.1 m ∧ Whole p.2.2 n := by
  unfold crossKeoghLowerBound
  refine Res.Ensures.bind (keogh_defined junk ha hb hr hm dropout) ?_
  rintro ⟨lb, a1⟩ ⟨h1, h2⟩
  simp only at *
  split
  · exact ⟨_, rfl, h1, rfl, h2, hb⟩
  · refine Res.Ensures.bind (keogh_defined junk hb h2 (by rw [Nat.max_comm]; exact hr) hn dropout) ?_
    rintro ⟨lb2, b1⟩ ⟨g1, g2⟩
    exact ⟨_, rfl, h1, g1, h2, g2⟩

/-- What a distance must do to keep the searches going: give a value and leave the values of the two
series (of `m` and `n` values) alone. -/
def DistDefined (d : Dist α) (m n : Nat) : Prop :=
  ∀ (a b : Series α) (dropout : α), Whole a m → Whole b n →
    (d a b dropout).Ensures fun p => p.2.1.vals = a.vals ∧ p.2.2.vals = b.vals ∧ Whole p.2.1 m ∧ Whole p.2.2 n

theorem defined_cascade (junk : α) {ratio : α} {m n : Nat} (hr : BandOk ratio (max m n)) (hm : 1 ≤ m) (hn : 1 ≤ n) :
    DistDefined (cascadeDistance junk ratio) m n := by
  intro a b dropout ha hb
  unfold cascadeDistance
  refine Res.Ensures.bind (crossKeogh_defined junk ha hb hr hm hn dropout) ?_
  rintro ⟨lb, a1, b1⟩ ⟨h1, h2, h3, h4⟩
  simp only at *
  split
  · exact ⟨_, rfl, h1, h2, h3, h4⟩
  · obtain ⟨v, hv⟩ := warped_defined (a := a1.vals) (b := b1.vals) (ratio := ratio) (by rw [h3.len, h4.len]; exact hr)
      (by rw [h3.len]; exact hm) (by rw [h4.len]; exact hn) dropout
    rw [hv, Res.bind_ok]
    exact ⟨_, rfl, h1, h2, h3, h4⟩

theorem defined_named {ratio : α} (dn : DistName) {m : Nat} (hr : BandOk ratio m) (hm : 1 ≤ m) :
    DistDefined (dn.fn ratio) m m := by
  intro a b dropout ha hb
  cases dn with
  | euclidean =>
    obtain ⟨v, hv⟩ := pairwise_defined (a := a.vals) (b := b.vals) (by rw [ha.len, hb.len]) dropout
    simp only [DistName.fn, hv, Res.bind_ok]
    exact ⟨_, rfl, rfl, rfl, ha, hb⟩
  | euclideanDtw =>
    obtain ⟨v, hv⟩ := warped_defined (a := a.vals) (b := b.vals) (ratio := ratio)
      (by rw [ha.len, hb.len, Nat.max_self]; exact hr) (by rw [ha.len]; exact hm) (by rw [hb.len]; exact hm) dropout
    simp only [DistName.fn, hv, Res.bind_ok]
    exact ⟨_, rfl, rfl, rfl, ha, hb⟩

end Onex
