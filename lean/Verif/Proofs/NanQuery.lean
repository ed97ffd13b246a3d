import Verif.Proofs.AnySearch

/-!
# A query that ends in not-a-number is at no distance below infinity from anything
-/

namespace Onex
open DataT Spec

variable {ρ : Rounding}

/-- A distance that no bound exceeds. -/
def Dead (x : F ρ) : Prop := x = F.nan ∨ x = F.pinf

theorem Dead.not_lt {x : F ρ} (h : Dead x) (y : F ρ) : lt x y = false := by
  rcases h with rfl | rfl <;> simp

theorem add_nan_right (x : F ρ) : add x F.nan = F.nan := by
  cases x <;> rfl

theorem euc_nan_right (x : F ρ) : euc x F.nan = F.nan := by
  cases x <;> rfl

theorem Dead.norm {x : F ρ} (h : Dead x) {l1 l2 : Int} (h0 : 0 ≤ max l1 l2) : Dead (eucNormDtw x l1 l2) := by
  rcases h with rfl | rfl
  · exact Or.inl rfl
  · exact Or.inr (eucNormDtw_pinf h0)

/-- The corner of the cost matrix holds a dead value. -/
def DeadCorner (c : Mat (F ρ)) (m n : Nat) : Prop :=
  IsMat c m n ∧ ∃ v, mget c ((m - 1 : Nat) : Int) ((n - 1 : Nat) : Int) = .ok v ∧ Dead v

theorem DeadCorner.set {c : Mat (F ρ)} {m n : Nat} (h : DeadCorner c m n) {i j : Int} (hi0 : 0 ≤ i) (hi : i < m)
    (hj0 : 0 ≤ j) (hj : j < n) {v : F ρ} (hv : i = (m : Int) - 1 → j = (n : Int) - 1 → Dead v) :
    ∃ c', mset c i j v = .ok c' ∧ DeadCorner c' m n := by
  obtain ⟨i, rfl⟩ := Int.eq_ofNat_of_zero_le hi0
  obtain ⟨j, rfl⟩ := Int.eq_ofNat_of_zero_le hj0
  obtain ⟨hm, w, hw, hdead⟩ := h
  obtain ⟨c', h1, h2, h3⟩ := mset_ok hm (i := i) (j := j) (by omega) (by omega) v
  refine ⟨c', h1, h2, ?_⟩
  rw [h3]
  by_cases e : m - 1 = i ∧ n - 1 = j
  · rw [if_pos e]
    exact ⟨v, rfl, hv (by omega) (by omega)⟩
  · rw [if_neg e]
    exact ⟨w, hw, hdead⟩

section warped
variable {a b : List (F ρ)}

theorem warpedCell_dead (hb : tsGet b (len b - 1) = .ok F.nan) {r i j : Int} {s : Mat (F ρ) × F ρ} (hi1 : 1 ≤ i)
    (hi : i < len a) (hj0 : 0 ≤ j) (hj : j < len b) (hs : DeadCorner s.1 a.length b.length) :
    (warpedCell a b r i j s).Ensures fun s' => DeadCorner s'.1 a.length b.length := by
  obtain ⟨cost, best⟩ := s
  simp only [len] at hi hj
  unfold warpedCell
  simp only at hs ⊢
  split
  · obtain ⟨v, hv⟩ := mget_defined hs.1 (i := i) (j := j) (by omega) (by omega) (by omega) (by omega)
    rw [hv]
    exact ⟨_, rfl, hs⟩
  · rename_i hj1
    obtain ⟨v2, h2⟩ := mget_defined hs.1 (i := i - 1) (j := j - 1) (by omega) (by omega) (by omega) (by omega)
    obtain ⟨v4, h4⟩ := mget_defined hs.1 (i := i - 1) (j := j) (by omega) (by omega) (by omega) (by omega)
    obtain ⟨v5, h5⟩ := mget_defined hs.1 (i := i) (j := j - 1) (by omega) (by omega) (by omega) (by omega)
    obtain ⟨x, hx⟩ := tsGet_defined (x := a) (i := i) (by omega) (by simp only [len]; omega)
    obtain ⟨y, hy⟩ := tsGet_defined (x := b) (i := j) (by omega) (by simp only [len]; omega)
    have fin : ∀ p : F ρ, (mset cost i j (add p (euc x y)) >>= fun c =>
        Res.ok (c, DataT.min best (add p (euc x y)))).Ensures fun s' => DeadCorner s'.1 a.length b.length := by
      intro p
      obtain ⟨c', hc1, hc2⟩ := hs.set (i := i) (j := j) (v := add p (euc x y)) (by omega) (by omega) (by omega)
        (by omega) (by
          intro _ e
          rw [show j = len b - 1 by simp only [len]; exact e, hb] at hy
          cases hy
          rw [euc_nan_right, add_nan_right]
          exact Or.inl rfl)
      rw [hc1, Res.bind_ok]
      exact ⟨_, rfl, hc2⟩
    simp only [h2, h4, h5, hx, hy, Res.bind_ok, Res.pure_eq]
    repeat' split
    all_goals exact fin _

theorem warpedBand_dead (hb : tsGet b (len b - 1) = .ok F.nan) {r : Nat} (hm : 2 ≤ a.length) (hn : 2 ≤ b.length)
    (dropout : F ρ) : (warpedDistanceBand (r : Int) a b dropout).Ensures Dead := by
  have hm' : 2 ≤ len a := by simp only [len]; omega
  have hn' : 2 ≤ len b := by simp only [len]; omega
  obtain ⟨x, hx⟩ := tsGet_defined (x := a) (i := 0) (by omega) (by omega)
  obtain ⟨y, hy⟩ := tsGet_defined (x := b) (i := 0) (by omega) (by omega)
  have em : len a - 1 = ((a.length - 1 : Nat) : Int) := by simp only [len]; omega
  have en : len b - 1 = ((b.length - 1 : Nat) : Int) := by simp only [len]; omega
  unfold warpedDistanceBand
  simp only
  rw [if_neg (by omega)]
  have h0 : IsMat (List.replicate (len a).toNat (List.replicate (len b).toNat (zero : F ρ))) a.length b.length := by
    have := isMat_replicate a.length b.length (zero : F ρ)
    simpa [len] using this
  obtain ⟨c1, e1, m1, g1⟩ := mset_ok h0 (i := a.length - 1) (j := b.length - 1) (by omega) (by omega) (inf : F ρ)
  rw [← em, ← en] at e1
  have d1 : DeadCorner c1 a.length b.length := by
    refine ⟨m1, inf, ?_, Or.inr rfl⟩
    rw [g1, if_pos ⟨rfl, rfl⟩]
  obtain ⟨c2, e2, d2⟩ := d1.set (i := 0) (j := 0) (v := euc x y) (by omega) (by omega) (by omega) (by omega)
    (by intro h; omega)
  rw [e1, Res.bind_ok, hx, Res.bind_ok, hy, Res.bind_ok, e2, Res.bind_ok]
  refine Res.Ensures.bind (forInt_keep (fun c => DeadCorner c a.length b.length) d2 ?_) ?_
  · intro i c hi1 hi2 hc
    simp only [len] at hi2
    obtain ⟨p, hp⟩ := mget_defined hc.1 (i := i - 1) (j := 0) (by omega) (by omega) (by omega) (by omega)
    obtain ⟨x', hx'⟩ := tsGet_defined (x := a) (i := i) (by omega) (by simp only [len]; omega)
    obtain ⟨c', g1, g2⟩ := hc.set (i := i) (j := 0) (v := add p (euc x' y)) (by omega) (by omega) (by omega) (by omega)
      (by intro _ h; omega)
    simp only [hp, hx', Res.bind_ok]
    exact ⟨c', g1, g2⟩
  intro c3 d3
  refine Res.Ensures.bind (forInt_keep (fun c => DeadCorner c a.length b.length) d3 ?_) ?_
  · intro j c hj1 hj2 hc
    simp only [len] at hj2
    obtain ⟨p, hp⟩ := mget_defined hc.1 (i := 0) (j := j - 1) (by omega) (by omega) (by omega) (by omega)
    obtain ⟨y', hy'⟩ := tsGet_defined (x := b) (i := j) (by omega) (by simp only [len]; omega)
    obtain ⟨c', g1, g2⟩ := hc.set (i := 0) (j := j) (v := add p (euc x y')) (by omega) (by omega) (by omega) (by omega)
      (by intro h; omega)
    simp only [hp, hy', Res.bind_ok]
    exact ⟨c', g1, g2⟩
  intro c4 d4
  refine Res.Ensures.bind (forBrk_keep (fun s : Mat (F ρ) × Bool => DeadCorner s.1 a.length b.length) d4 ?_) ?_
  · intro i s hi1 hi2 hs
    unfold warpedRow
    refine Res.Ensures.bind (forInt_keep (fun s : Mat (F ρ) × F ρ => DeadCorner s.1 a.length b.length) hs ?_) ?_
    · intro j s' hj1 hj2 hs'
      exact warpedCell_dead hb hi1 hi2 (by omega) (by omega) hs'
    · rintro ⟨c5, best⟩ d5
      simp only
      split
      · exact ⟨_, rfl, d5⟩
      · exact ⟨_, rfl, d5⟩
  · rintro ⟨c6, dropped⟩ ⟨_, v, hv, hdead⟩
    simp only
    rw [← em, ← en] at hv
    cases dropped
    · simp only [Bool.false_eq_true, if_false]
      rw [hv]
      exact ⟨_, rfl, hdead.norm (by omega)⟩
    · exact ⟨_, rfl, Dead.norm (Or.inr rfl) (by omega)⟩

end warped

/-- Every distance from anything to a query that ends in not-a-number is dead. -/
theorem cascade_dead (junk : F ρ) {ratio : F ρ} {a b : Series (F ρ)} {m n : Nat} (ha : Whole a m) (hb : Whole b n)
    (hr : BandOk ratio (max m n)) (hm : 2 ≤ m) (hn : 2 ≤ n) (hlast : b.vals.getLast? = some F.nan) (dropout : F ρ) :
    (cascadeDistance junk ratio a b dropout).Ensures fun p => Dead p.1 := by
  unfold cascadeDistance
  refine Res.Ensures.bind (crossKeogh_defined junk ha hb hr (by omega) (by omega) dropout) ?_
  rintro ⟨lb, a1, b1⟩ ⟨h1, h2, h3, h4⟩
  simp only at *
  split
  · exact ⟨_, rfl, Or.inr rfl⟩
  · have hl : tsGet b1.vals (len b1.vals - 1) = .ok F.nan := by
      have hlen : b1.vals.length = n := h4.len
      unfold tsGet
      rw [if_neg (by simp only [Onex.len, hlen]; omega)]
      apply vget_of_getElem?
      · simp only [Onex.len, hlen]; omega
      · rw [List.getLast?_eq_getElem?, ← h2] at hlast
        rw [← hlast]
        congr 1
        simp only [Onex.len]
        omega
    obtain ⟨r, hr⟩ := hr
    have e : max (Onex.len a1.vals) (Onex.len b1.vals) = ((max m n : Nat) : Int) := by
      simp only [Onex.len, h3.len, h4.len]; omega
    obtain ⟨v, hv, hdead⟩ := warpedBand_dead (a := a1.vals) hl (r := r) (by rw [h3.len]; exact hm)
      (by rw [h4.len]; exact hn) dropout
    unfold warpedDistance
    rw [e, hr, Res.bind_ok, hv, Res.bind_ok]
    exact ⟨_, rfl, hdead⟩

/-- A scan with dead distances finds nothing. -/
theorem nearest_dead {d : Dist (F ρ)} {n m : Nat} (hd : DistDefined d n m) {vals : List (F ρ)}
    (hdead : ∀ a b dropout, Whole a n → Whole b m → b.vals = vals → (d a b dropout).Ensures fun p => Dead p.1)
    {ds : Dataset (F ρ)} {gs : List (Group (F ρ))} (hg : ∀ g ∈ gs, CentFit ds n g) {query : Series (F ρ)}
    (hq : Whole query m) (hv : query.vals = vals) (dropout : F ρ) :
    (nearest ds d gs query dropout).Ensures fun s => s.bestIdx = none ∧ s.best = dropout := by
  unfold nearest
  refine (forInt_keep (fun s : NearestState (F ρ) => (s.groups.length = gs.length ∧ ∀ g ∈ s.groups, CentFit ds n g) ∧
    s.query.vals = vals ∧ Whole s.query m ∧ s.bestIdx = none ∧ s.best = dropout)
    ⟨⟨rfl, hg⟩, hv, hq, rfl, rfl⟩ ?_).mono (fun s h => h.2.2.2)
  rintro i s hi1 hi2 ⟨⟨hl, hfit⟩, hqv, hqw, hb⟩
  obtain ⟨g, hget, hgi⟩ := vget_ok (l := s.groups) (i := i) hi1 (by simp only [len] at hi2 ⊢; omega)
  obtain ⟨c, hc1, hc2⟩ := hfit g (List.mem_of_getElem? hgi)
  obtain ⟨⟨x, c', q'⟩, e, v1, v2, w1, w2⟩ := hd c s.query s.best hc2 hqw
  have hx := hdead c s.query s.best hc2 hqw hqv
  rw [e, Res.ensures_ok] at hx
  simp only at v1 v2 w1 w2 hx
  have hset := vset_ok (l := s.groups) (i := i) (recache g c'.cache) hi1 (by simp only [len] at hi2 ⊢; omega)
  unfold nearestStep
  rw [hget, Res.bind_ok]
  unfold Group.distanceFromCentroid
  rw [hc1, Res.bind_ok, e]
  simp only [Res.bind_ok, Res.pure_eq]
  change (vset s.groups i (recache g c'.cache) >>= _).Ensures _
  rw [hset, Res.bind_ok, if_neg (by rw [hx.not_lt]; simp)]
  have hfit' : ∀ g' ∈ s.groups.set i.toNat (recache g c'.cache), CentFit ds n g' := by
    intro g' hg'
    rcases List.mem_or_eq_of_mem_set hg' with h | h
    · exact hfit g' h
    · rw [h]
      exact CentFit.recache hc1 v1 w1
  exact ⟨_, rfl, ⟨by simpa using hl, hfit'⟩, by rw [v2, hqv], w2, hb⟩

theorem searchLoop_dead {ds : Dataset (F ρ)} {L n : Nat} {d : Dist (F ρ)} {vals : List (F ρ)}
    (hd : ∀ l : Int, 2 ≤ l → l ≤ L → DistDefined d l.toNat n)
    (hdead : ∀ l : Int, 2 ≤ l → l ≤ L → ∀ a b dropout, Whole a l.toNat → Whole b n → b.vals = vals →
      (d a b dropout).Ensures fun p => Dead p.1) :
    ∀ (order : List Int), (∀ l ∈ order, 2 ≤ l ∧ l ≤ L) → ∀ s : SearchState (F ρ), AInv ds L n vals s →
      s.bestGroup = none → (searchLoop ds d order s).Ensures fun s' => s'.bestGroup = none
  | [], _, s, _, hn => ⟨s, rfl, hn⟩
  | l :: order, ho, s, hi, hn => by
    obtain ⟨h2, hL⟩ := ho l (by simp)
    unfold searchLoop
    have hstep : (searchStep ds d s l).Ensures fun s' => s'.bestGroup = none := by
      obtain ⟨ls, M, hget, hl⟩ := hi.ok.at_ l h2 hL
      obtain ⟨t, ht, t1, t2⟩ := nearest_dead (hd l h2 hL) (hdead l h2 hL) hl.cents hi.query hi.vals s.best
      obtain ⟨hl0, hl1⟩ := vget_lt hget
      obtain ⟨locals', hset⟩ : ∃ x, vset s.locals l (some { ls with groups := t.groups }) = .ok x :=
        ⟨_, vset_ok _ hl0 hl1⟩
      unfold searchStep
      rw [hget, Res.bind_ok]
      simp only [LocalSpace.getBestGroup, ht, Res.bind_ok, Res.pure_eq, hset, t1, t2]
      rw [if_neg (by rw [lt_irrefl_F]; simp)]
      exact ⟨_, rfl, hn⟩
    exact Res.Ensures.bind ((searchStep_any hi h2 hL (hd l h2 hL)).and hstep)
      (fun s' hs' => searchLoop_dead hd hdead order (fun l hl => ho l (by simp [hl])) s' hs'.1 hs'.2)

/-- The search for a query that ends in not-a-number dereferences a null pointer. -/
theorem globalMatch_dead {ds : Dataset (F ρ)} {L : Nat} {R : List (List (F ρ))} (hR : ds.Holds L R) (hne : R ≠ [])
    {ratio : ℝ} (junk : F ρ) (hfit : ∀ l ≤ L, RatioOk ρ ratio l) {gs : GlobalSpace (F ρ)}
    (hok : SearchAny ds L gs.locals) {query : Series (F ρ)} {n : Nat} (hq : Whole query n) (hq2 : 2 ≤ n)
    (hqL : n ≤ L) (hlast : query.vals.getLast? = some F.nan) :
    gs.getBestMatch junk (F.fin ratio) ds query = .ub "null dereference" := by
  obtain ⟨order, o1, hord, s, hs, hi, hres⟩ := globalMatch_any hR hne junk hfit hok hq hq2 hqL
  have hband : ∀ k, 1 ≤ k → k ≤ L → BandOk (F.fin ratio : F ρ) k := by
    intro k h1 h2
    exact ⟨_, band_ok (hfit k h2) h1⟩
  have hnone := searchLoop_dead (ds := ds) (L := L) (n := n) (d := cascadeDistance junk (F.fin ratio))
    (vals := query.vals)
    (fun l h1 h2 => defined_cascade junk (hband _ (by omega) (by omega)) (by omega) (by omega))
    (fun l h1 h2 a b dropout ha hb hv => cascade_dead junk ha hb (hband _ (by omega) (by omega)) (by omega) hq2
      (by rw [hv]; exact hlast) dropout) order hord
    { locals := gs.locals, query := query, best := F.pinf, bestGroup := none } ⟨hok, hq, rfl, by simp⟩ rfl
  rw [hs, Res.ensures_ok] at hnone
  rcases hres with ⟨_, h⟩ | ⟨l, c, x, _, _, h⟩
  · exact h
  · exfalso
    have hlen : len gs.locals - 1 = (L : Int) := by rw [hok.size]; omega
    have hqlen : query.length = (n : Int) := by
      unfold Series.length
      simp only [Onex.len, hq.len]
    unfold GlobalSpace.getBestMatch at h
    rw [if_neg (by rw [hqlen]; omega)] at h
    simp only at h
    rw [hqlen, hlen, o1, Res.bind_ok, inf_F, hs, Res.bind_ok] at h
    simp only [hnone] at h
    cases h

end Onex
