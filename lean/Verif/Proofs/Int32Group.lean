import Verif.Proofs.Int32Dist

/-!
# Checked arithmetic agrees with unbounded arithmetic: grouping and matching
-/

namespace Onex

variable {α : Type} [DataT α]

open DataT

omit [DataT α] in
theorem getTimeSeries_ok {ds : Dataset α} {i s e : Int} {v : View} (h : ds.getTimeSeries i s e = .ok v) :
    0 ≤ i ∧ i < ds.itemCount ∧ s < ds.itemLength ∨ 0 ≤ i ∧ i < ds.itemCount ∧ s < 0 := by
  unfold Dataset.getTimeSeries at h
  split at h
  · cases h
  · split at h
    · omega
    · split at h
      · cases h
      · omega

theorem mul_lt_of {i c l : Int} (h0 : 0 ≤ i) (h1 : i < c) (hl : 0 ≤ l) : 0 ≤ i * l ∧ i * l + l ≤ c * l := by
  constructor
  · exact mul_nonneg h0 hl
  · have : (i + 1) * l ≤ c * l := mul_le_mul_of_nonneg_right (by omega) hl
    linarith [this, add_mul i 1 l]

omit [DataT α] in
theorem getTimeSeries32_fits {ds : Dataset α} (hd : ds.Small) (i s e : Int) :
    SameInt (fun v => 0 ≤ i ∧ i < ds.itemCount ∧ s < ds.itemLength ∧ ds.getTimeSeries i s e = .ok v)
      (ds.getTimeSeries32 i s e) (ds.getTimeSeries i s e) := by
  have ⟨c0, l0, c1, l1, p, _⟩ := hd
  unfold intLimit at c1 l1 p
  unfold Dataset.getTimeSeries32
  unfold Dataset.getTimeSeries
  by_cases h1 : i < 0 ∨ i ≥ ds.itemCount
  · simp only [if_pos h1]; exact .throw _
  have h3 := mul_lt_of (i := i) (c := ds.itemCount) (l := ds.itemLength) (by omega) (by omega) l0
  simp only [if_neg h1]
  by_cases h2 : s < 0 ∧ e < 0
  · simp only [if_pos h2, Res.bind_ok]
    cks
    exact SameInt.ok ⟨by omega, by omega, by omega, rfl⟩
  simp only [if_neg h2]
  by_cases h4 : s < 0 ∨ s ≥ e ∨ e > ds.itemLength
  · simp only [if_pos h4]; exact .throw _
  simp only [if_neg h4, Res.bind_ok]
  cks
  exact SameInt.ok ⟨by omega, by omega, by omega, rfl⟩

omit [DataT α] in
theorem resolve_short {ds : Dataset α} (hd : ds.Small) {v : View} {vals : List α} (h : ds.resolve v = .ok vals) :
    len vals ≤ intLimit := by
  unfold Dataset.resolve Dataset.buf at h
  split at h
  · cases h
  split at h
  · cases h; simp [intLimit]
  cases hb : ds.data with
  | none => simp [hb] at h
  | some b =>
    simp only [hb, Res.bind_ok] at h
    split at h
    · cases h
      have := hd.buffer b hb
      simp only [len, List.length_take, List.length_drop] at *
      omega
    · cases h

/-- What is kept of a group while grouping: everything but the envelope cache. -/
structure GI (ds : Dataset α) (l sc k : Int) (g : Group α) : Prop where
  small : g.Small ds
  len : g.memberLength = l
  sub : g.subCount = sc
  count0 : 0 ≤ g.count
  count : g.count ≤ k

omit [DataT α] in
theorem Group.Small.cache {ds : Dataset α} {g : Group α} (h : g.Small ds) (c : Option (Cache α)) :
    Group.Small ds { g with centroid := { g.centroid with cache := c } } :=
  ⟨h.last, h.member0, h.member, h.sub0, h.sub, h.own⟩

omit [DataT α] in
theorem GI.cache {ds : Dataset α} {l sc k : Int} {g : Group α} (h : GI ds l sc k g) (c : Option (Cache α)) :
    GI ds l sc k { g with centroid := { g.centroid with cache := c } } :=
  ⟨h.small.cache c, h.len, h.sub, h.count0, h.count⟩

omit [DataT α] in
theorem distanceFromCentroid_fits {ds : Dataset α} (hd : ds.Small) {d32 d : Dist α} (hD : ShortSame d32 d) {g : Group α}
    (hg : g.Small ds) {q : Series α} (hq : len q.vals ≤ intLimit) (x : α) :
    SameInt (fun y => (∃ c, y.2.1 = { g with centroid := { g.centroid with cache := c } }) ∧ y.2.2.vals = q.vals)
      (g.distanceFromCentroid ds q d32 x) (g.distanceFromCentroid ds q d x) := by
  unfold Group.distanceFromCentroid
  refine SameInt.both fun c hc => ?_
  have hs : len c.vals ≤ intLimit := by
    unfold Cent.resolve at hc
    cases hsrc : g.centroid.src with
    | own vals => simp only [hsrc] at hc; cases hc; exact hg.own vals hsrc
    | view v =>
      simp only [hsrc, Res.bind_eq_ok] at hc
      obtain ⟨vals, hv, h⟩ := hc
      cases h
      exact resolve_short hd hv
  refine SameInt.bind (hD c q x hs hq) fun y hy => SameInt.ok ⟨⟨_, rfl⟩, hy.2⟩

/-- The scan over the groups, for any property of groups that ignores their caches. -/
theorem nearest_fits {ds : Dataset α} (hd : ds.Small) {d32 d : Dist α} (hD : ShortSame d32 d) (P : Group α → Prop)
    (hP : ∀ g, P g → g.Small ds) (hc : ∀ g c, P g → P { g with centroid := { g.centroid with cache := c } })
    {groups : List (Group α)} (hg : ∀ g ∈ groups, P g) {q : Series α} (hq : len q.vals ≤ intLimit) (x : α) :
    SameInt (fun s => (∀ g ∈ s.groups, P g) ∧ len s.groups = len groups ∧ s.query.vals = q.vals) (nearest ds d32 groups q x)
      (nearest ds d groups q x) := by
  unfold nearest
  refine SameInt.forInt (I := fun _ (s : NearestState α) => (∀ g ∈ s.groups, P g) ∧ len s.groups = len groups ∧ s.query.vals = q.vals) ?_ ⟨hg, rfl, rfl⟩
  intro i s _ _ hs
  unfold nearestStep
  refine SameInt.both fun g hgi => ?_
  have hPg : P g := hs.1 g (List.mem_of_getElem? (vget_eq_ok.mp hgi).2)
  refine SameInt.bind (distanceFromCentroid_fits hd hD (hP g hPg) (by rw [hs.2.2]; exact hq) _) fun y hy => ?_
  obtain ⟨dist, g', q'⟩ := y
  obtain ⟨⟨c, hg'⟩, hq'⟩ := hy
  simp only at hg' hq'
  refine SameInt.both fun groups' hset => ?_
  have hlen := vset_len hset
  obtain ⟨-, -, rfl⟩ := vset_eq_ok.mp hset
  have hall : ∀ g ∈ s.groups.set i.toNat g', P g := by
    intro g2 h2
    rcases List.mem_or_eq_of_mem_set h2 with h2 | h2
    · exact hs.1 g2 h2
    · rw [h2, hg']; exact hc g c hPg
  refine SameInt.ite (fun _ => SameInt.ok ⟨hall, ?_, ?_⟩) fun _ => SameInt.ok ⟨hall, ?_, ?_⟩
  all_goals first | (simp only [len_set]; exact hs.2.1) | (simp only; rw [hq', hs.2.2])

/-- The space of one length while it is being filled, after `k` sub-series. -/
structure LI (ds : Dataset α) (l k : Int) (ls : LocalSpace α) : Prop where
  length : ls.length = l
  sub : ls.subCount = ds.itemLength - l + 1
  groups : ∀ g ∈ ls.groups, GI ds l (ds.itemLength - l + 1) k g
  num : len ls.groups ≤ k
  map : ∀ e ∈ ls.memberMap, Coord.Small e.prev

theorem placeOne32_fits {ds : Dataset α} (hd : ds.Small) {d32 d : Dist α} (hD : ShortSame d32 d) (threshold : α) {l k : Int}
    (hl : 1 ≤ l) (hl1 : l ≤ ds.itemLength) (k0 : 0 ≤ k) (hk : k ≤ intLimit) {idx start : Int} (i0 : 0 ≤ idx) (i1 : idx < ds.itemCount)
    (s0 : 0 ≤ start) (s1 : start < ds.itemLength - l + 1) {ls : LocalSpace α} (h : LI ds l k ls) :
    SameInt (LI ds l (k + 1)) (placeOne32 ds d32 threshold idx start ls) (placeOne ds d threshold idx start ls) := by
  have ⟨c0, l0, c1, l1, p, _⟩ := hd
  have ⟨hL, hS, hG, hN, hM⟩ := h
  have hk' := hk
  have c1' := c1
  have l1' := l1
  have p' := p
  unfold intLimit at c1' l1' p' hk'
  unfold placeOne32 placeOne
  refine SameInt.ck (by rw [hL]; constructor <;> omega) ?_
  refine SameInt.bind (getTimeSeries32_fits hd idx start _) fun v hv => SameInt.both fun vals hvals => ?_
  refine SameInt.bind (nearest_fits hd hD (GI ds l (ds.itemLength - l + 1) k) (fun g hg => hg.small) (fun g c hg => hg.cache c) hG
    (q := Series.mk' vals) (resolve_short hd hvals) DataT.inf) fun s hs => ?_
  obtain ⟨hsG, hsN, -⟩ := hs
  have hn0 := len_nonneg s.groups
  refine SameInt.ck (by constructor <;> omega) ?_
  have fin : ∀ (groups : List (Group α)) (bestIdx : Option Int), (∀ g ∈ groups, GI ds l (ds.itemLength - l + 1) k g) → len groups ≤ k + 1 →
      SameInt (LI ds l (k + 1))
        (match bestIdx with
          | none => .ub "uninitialised index"
          | some k => do
            let g ← vget groups k
            let (g, mm) ← g.addMember32 ls.memberMap idx start
            let groups ← vset groups k g
            return { ls with groups := groups, memberMap := mm })
        (match bestIdx with
          | none => .ub "uninitialised index"
          | some k => do
            let g ← vget groups k
            let (g, mm) ← g.addMember ls.memberMap idx start
            let groups ← vset groups k g
            return { ls with groups := groups, memberMap := mm }) := by
    intro groups bestIdx hg hn
    cases bestIdx with
    | none => exact .ub _
    | some j =>
      refine SameInt.both fun g hgj => ?_
      have gi := hg g (List.mem_of_getElem? (vget_eq_ok.mp hgj).2)
      have hsub : 0 ≤ ds.itemLength - l + 1 := by omega
      have hmul := mul_lt_of i0 i1 hsub
      have hle : ds.itemCount * (ds.itemLength - l + 1) ≤ ds.itemCount * ds.itemLength := mul_le_mul_of_nonneg_left (by omega) c0
      have g1 := gi.count0
      have g2 := gi.count
      refine SameInt.bind (P := fun y => GI ds l (ds.itemLength - l + 1) (k + 1) y.1 ∧ ∀ e ∈ y.2, Coord.Small e.prev) ?_ ?_
      · unfold Group.addMember32
        refine SameInt.ck (by rw [gi.sub]; constructor <;> omega) ?_
        refine SameInt.ck (by rw [gi.sub]; constructor <;> omega) ?_
        refine SameInt.ck (by constructor <;> omega) ?_
        unfold Group.addMember
        refine SameInt.both fun mm hmm => SameInt.ok ⟨⟨⟨?_, gi.small.member0, gi.small.member, gi.small.sub0, gi.small.sub, gi.small.own⟩,
          gi.len, gi.sub, ?_, ?_⟩, ?_⟩
        · exact ⟨by simp only; omega, by simp only; omega, by simp only; omega, by simp only; omega⟩
        · simp only; omega
        · simp only; omega
        · obtain ⟨-, -, rfl⟩ := vset_eq_ok.mp hmm
          intro e he
          rcases List.mem_or_eq_of_mem_set he with he | he
          · exact hM e he
          · rw [he]; exact gi.small.last
      · rintro ⟨g', mm⟩ ⟨hg', hmm⟩
        refine SameInt.both fun groups' hset => SameInt.ok ?_
        obtain ⟨-, -, rfl⟩ := vset_eq_ok.mp hset
        refine ⟨hL, hS, ?_, by simp only [len_set]; exact hn, hmm⟩
        intro g2 h2
        rcases List.mem_or_eq_of_mem_set h2 with h2 | h2
        · have := hg g2 h2
          exact ⟨this.small, this.len, this.sub, this.count0, by have := this.count; omega⟩
        · rw [h2]; exact hg'
  refine SameInt.ite (fun _ => ?_) fun _ => fin s.groups s.bestIdx hsG (by omega)
  refine SameInt.bind (P := GI ds l (ds.itemLength - l + 1) k) ?_ fun g hg => fin (s.groups ++ [g]) (some (len s.groups)) ?_ ?_
  · unfold Group.setCentroid32 Group.setCentroid
    refine SameInt.ck (by simp only [Group.new]; rw [hL]; constructor <;> omega) ?_
    refine SameInt.bind (getTimeSeries32_fits hd idx start _) fun v hv => SameInt.ok ?_
    refine ⟨⟨?_, ?_, ?_, ?_, ?_, ?_⟩, hL, hS, le_rfl, k0⟩
    · simp [Coord.Small, Group.new, intLimit]
    · simp only [Group.new]; omega
    · simp only [Group.new, intLimit]; omega
    · simp only [Group.new]; omega
    · simp only [Group.new]; omega
    · intro vals hv; cases hv
  · intro g2 h2
    rcases List.mem_append.mp h2 with h2 | h2
    · exact hsG g2 h2
    · rw [List.mem_singleton.mp h2]; exact hg
  · simp; omega

/-- The progress report does no harm when the number of sub-series is small enough, or nothing is reported. -/
theorem logProgress32_eq {doLog : Bool} {total counter : Int} (h : doLog = true → total ≤ 21474839) (c0 : 0 ≤ counter)
    (c1 : counter ≤ total) : logProgress32 doLog total counter = logProgress doLog total := by
  unfold logProgress32 logProgress
  cases doLog with
  | false => simp
  | true =>
    have := h rfl
    simp only [if_true, true_and]
    split
    · rfl
    · split
      · rename_i hm
        refine ck_eq ?_
        rw [Int.tdiv_eq_ediv_of_nonneg (by omega)] at hm
        rw [Int.tmod_eq_emod_of_nonneg c0] at hm
        by_cases hs : total ≤ 21474836
        · omega
        · have e : total / 5 = 4294967 := by omega
          rw [e] at hm
          omega
      · rfl

theorem generateGroups32_fits {ds : Dataset α} (hd : ds.Small) {d32 d : Dist α} (hD : ShortSame d32 d) (threshold : α) {l : Int}
    (hl : 1 ≤ l) (hl1 : l ≤ ds.itemLength) {doLog : Bool}
    (hlog : doLog = true → (ds.itemLength - l + 1) * ds.itemCount ≤ 21474839) {ls : LocalSpace α} (h : LI ds l 0 ls) :
    SameInt (fun ls => ∃ k, 0 ≤ k ∧ LI ds l k ls) (ls.generateGroups32 ds d32 threshold doLog) (ls.generateGroups ds d threshold doLog) := by
  have ⟨c0, l0, c1, l1, p, _⟩ := hd
  unfold LocalSpace.generateGroups32 LocalSpace.generateGroups
  have hsub : 0 ≤ ds.itemLength - l + 1 := by omega
  have hle : ds.itemCount * (ds.itemLength - l + 1) ≤ ds.itemCount * ds.itemLength := mul_le_mul_of_nonneg_left (by omega) c0
  rw [mul_comm] at hle
  have htot : 0 ≤ (ds.itemLength - l + 1) * ds.itemCount := mul_nonneg hsub c0
  have p' := p
  unfold intLimit at p'
  simp only [h.sub]
  refine SameInt.ck (by constructor <;> omega) ?_
  have key : RR (fun (a : LocalSpace α × Int) b => a.1 = b ∧ ∃ k, 0 ≤ k ∧ LI ds l k b)
      (forInt 0 (ds.itemLength - l + 1) (ls, 0) fun start s =>
        forInt 0 ds.itemCount s fun idx s => do
          ck (s.2 + 1)
          logProgress32 doLog ((ds.itemLength - l + 1) * ds.itemCount) (s.2 + 1)
          let ls ← placeOne32 ds d32 threshold idx start s.1
          return (ls, s.2 + 1))
      (forInt 0 (ds.itemLength - l + 1) ls fun start ls =>
        forInt 0 ds.itemCount ls fun idx ls => do
          logProgress doLog ((ds.itemLength - l + 1) * ds.itemCount)
          placeOne ds d threshold idx start ls) := by
    have := RR.forInt_range (lo := 0) (hi := ds.itemLength - l + 1) (s := (ls, (0 : Int))) (t := ls)
      (S := fun start a b => a.1 = b ∧ a.2 = start * ds.itemCount ∧ LI ds l a.2 b)
      (f := fun start s =>
        forInt 0 ds.itemCount s fun idx s => do
          ck (s.2 + 1)
          logProgress32 doLog ((ds.itemLength - l + 1) * ds.itemCount) (s.2 + 1)
          let ls ← placeOne32 ds d32 threshold idx start s.1
          return (ls, s.2 + 1))
      (g := fun start ls =>
        forInt 0 ds.itemCount ls fun idx ls => do
          logProgress doLog ((ds.itemLength - l + 1) * ds.itemCount)
          placeOne ds d threshold idx start ls) ?_ ⟨rfl, by simp, h⟩
    · refine RR.mono this fun a b h => ⟨h.1, _, ?_, h.2.2⟩
      rw [h.2.1]
      exact mul_nonneg (by omega) c0
    rintro start a b s0 s1 ⟨h1, h2, h3⟩
    have hm := mul_lt_of s0 s1 c0
    have := RR.forInt_range (lo := 0) (hi := ds.itemCount) (s := a) (t := b)
      (S := fun idx a b => a.1 = b ∧ a.2 = start * ds.itemCount + idx ∧ LI ds l a.2 b)
      (f := fun idx s => do
          ck (s.2 + 1)
          logProgress32 doLog ((ds.itemLength - l + 1) * ds.itemCount) (s.2 + 1)
          let ls ← placeOne32 ds d32 threshold idx start s.1
          return (ls, s.2 + 1))
      (g := fun idx ls => do
          logProgress doLog ((ds.itemLength - l + 1) * ds.itemCount)
          placeOne ds d threshold idx start ls) ?_ ⟨h1, by omega, h3⟩
    · have e : max 0 ds.itemCount = ds.itemCount := by omega
      rw [e] at this
      have e2 : start * ds.itemCount + ds.itemCount = (start + 1) * ds.itemCount := by ring
      rwa [e2] at this
    rintro idx ⟨lsa, ca⟩ b i0 i1 ⟨h1, h2, h3⟩
    simp only at h1 h2 h3
    subst h1
    rw [ck_eq (by constructor <;> omega), Res.bind_ok, logProgress32_eq hlog (by omega) (by omega)]
    refine RR.bind_same fun _ => ?_
    have pf := placeOne32_fits hd hD threshold (k := ca) hl hl1 (by omega) (by unfold intLimit at *; omega) i0 i1 s0 s1 h3
    rw [pf.eq]
    cases hp : placeOne ds d threshold idx start lsa with
    | ok ls' => exact .ok ⟨rfl, by simp only; omega, pf.post hp⟩
    | throw e => exact .throw e
    | ub w => exact .ub w
  revert key
  generalize (forInt 0 (ds.itemLength - l + 1) (ls, (0 : Int)) _) = x
  generalize (forInt 0 (ds.itemLength - l + 1) ls _) = y
  intro key
  cases key with
  | ok h => exact RR.ok h
  | throw e => exact .throw e
  | ub w => exact .ub w

/-! ### When the progress report overflows -/

/-- Either `x` overflows, or the outcomes are related. -/
def UpTo {β γ : Type} (R : β → γ → Prop) (x : Res β) (y : Res γ) : Prop := x = .ub "signed overflow" ∨ RR R x y

namespace UpTo
variable {β γ β' γ' : Type} {R : β → γ → Prop} {S : β' → γ' → Prop}

theorem bind {x : Res β} {y : Res γ} {f : β → Res β'} {g : γ → Res γ'} (h : UpTo R x y) (hf : ∀ a b, R a b → UpTo S (f a) (g b)) :
    UpTo S (x >>= f) (y >>= g) := by
  rcases h with rfl | h
  · exact .inl rfl
  · cases h with
    | ok h => exact hf _ _ h
    | throw e => exact .inr (.throw e)
    | ub w => exact .inr (.ub w)

theorem ck {e : Int} {f : Unit → Res β} {y : Res γ} (h : e ≤ 2147483647 → -2147483648 ≤ e → UpTo R (f ()) y) : UpTo R (Onex.ck e >>= f) y := by
  by_cases he : -2147483648 ≤ e ∧ e ≤ 2147483647
  · rw [ck_eq he]; exact h he.2 he.1
  · rw [ck_ub (by omega)]; exact .inl rfl

theorem forIntGo {S : Int → β → γ → Prop} {f : Int → β → Res β} {g : Int → γ → Res γ} {hi : Int} :
    ∀ (k : ℕ) (lo : Int) {s : β} {t : γ}, lo + k ≤ hi →
      (∀ i s t, lo ≤ i → i < hi → S i s t → UpTo (S (i + 1)) (f i s) (g i t)) →
      S lo s t → UpTo (S (lo + k)) (Onex.forIntGo f k lo s) (Onex.forIntGo g k lo t)
  | 0, lo, _, _, _, _, hs => by simpa [Onex.forIntGo] using .inr (RR.ok hs)
  | k + 1, lo, s, t, hk, h, hs => by
    refine UpTo.bind (h lo s t le_rfl (by push_cast at hk; omega) hs) fun a b hab => ?_
    have := UpTo.forIntGo (S := S) (f := f) (g := g) (hi := hi) k (lo + 1) (s := a) (t := b) (by push_cast at hk; omega)
      (fun i s t hi' hlt => h i s t (by omega) hlt) hab
    have e : lo + 1 + (k : Int) = lo + ((k + 1 : ℕ) : Int) := by push_cast; omega
    rwa [e] at this

theorem forInt {S : Int → β → γ → Prop} {f : Int → β → Res β} {g : Int → γ → Res γ} {lo hi : Int} {s : β} {t : γ}
    (h : ∀ i s t, lo ≤ i → i < hi → S i s t → UpTo (S (i + 1)) (f i s) (g i t)) (hs : S lo s t) :
    UpTo (S (max lo hi)) (Onex.forInt lo hi s f) (Onex.forInt lo hi t g) := by
  by_cases hh : lo ≤ hi
  · have := UpTo.forIntGo (S := S) (f := f) (g := g) (hi := hi) (hi - lo).toNat lo (s := s) (t := t) (by omega) h hs
    have e : lo + ((hi - lo).toNat : Int) = max lo hi := by omega
    rwa [e] at this
  · rw [forInt_of_le (by omega), forInt_of_le (by omega), max_eq_left (by omega)]
    exact .inr (.ok hs)

end UpTo

/-- The report at `k` stays in range. -/
def ReportOk (doLog : Bool) (total k : Int) : Prop :=
  doLog = true → k.tmod (total.tdiv 5) = 0 → k * 100 ≤ 2147483647

theorem logProgress32_upTo (doLog : Bool) (total k : Int) :
    UpTo (fun _ _ => ReportOk doLog total k) (logProgress32 doLog total k) (logProgress doLog total) := by
  unfold logProgress32 logProgress ReportOk
  cases doLog with
  | false => simp only [Bool.false_eq_true, if_false, false_and]; exact .inr (.ok (by simp))
  | true =>
    simp only [if_true, true_and]
    split
    · exact .inr (.ub _)
    · split
      · by_cases he : -2147483648 ≤ k * 100 ∧ k * 100 ≤ 2147483647
        · rw [ck_eq he]; exact .inr (.ok fun _ _ => he.2)
        · rw [ck_ub (by omega)]; exact .inl rfl
      · exact .inr (.ok fun _ h => absurd h (by assumption))

/-- Without any limit on the number of sub-series: the checked version overflows or agrees, and if it agrees, all its reports were in range. -/
theorem generateGroups32_upTo {ds : Dataset α} (hd : ds.Small) {d32 d : Dist α} (hD : ShortSame d32 d) (threshold : α) {l : Int}
    (hl : 1 ≤ l) (hl1 : l ≤ ds.itemLength) (doLog : Bool) {ls : LocalSpace α} (h : LI ds l 0 ls) :
    UpTo (fun a b => a = b ∧ ∀ k, 1 ≤ k → k ≤ (ds.itemLength - l + 1) * ds.itemCount → ReportOk doLog ((ds.itemLength - l + 1) * ds.itemCount) k)
      (ls.generateGroups32 ds d32 threshold doLog) (ls.generateGroups ds d threshold doLog) := by
  have ⟨c0, l0, c1, l1, p, _⟩ := hd
  unfold LocalSpace.generateGroups32 LocalSpace.generateGroups
  have hsub : 0 ≤ ds.itemLength - l + 1 := by omega
  have hle : ds.itemCount * (ds.itemLength - l + 1) ≤ ds.itemCount * ds.itemLength := mul_le_mul_of_nonneg_left (by omega) c0
  rw [mul_comm] at hle
  have htot : 0 ≤ (ds.itemLength - l + 1) * ds.itemCount := mul_nonneg hsub c0
  have p' := p
  unfold intLimit at p'
  simp only [h.sub]
  refine UpTo.ck fun _ _ => ?_
  generalize htt : (ds.itemLength - l + 1) * ds.itemCount = total at htot hle
  have key : UpTo (fun (a : LocalSpace α × Int) b => a.1 = b ∧ ∀ k, 1 ≤ k → k ≤ total → ReportOk doLog total k)
      (forInt 0 (ds.itemLength - l + 1) (ls, 0) fun start s =>
        forInt 0 ds.itemCount s fun idx s => do
          ck (s.2 + 1)
          logProgress32 doLog total (s.2 + 1)
          let ls ← placeOne32 ds d32 threshold idx start s.1
          return (ls, s.2 + 1))
      (forInt 0 (ds.itemLength - l + 1) ls fun start ls =>
        forInt 0 ds.itemCount ls fun idx ls => do
          logProgress doLog total
          placeOne ds d threshold idx start ls) := by
    have := UpTo.forInt (lo := 0) (hi := ds.itemLength - l + 1) (s := (ls, (0 : Int))) (t := ls)
      (S := fun start a b => a.1 = b ∧ a.2 = start * ds.itemCount ∧ LI ds l a.2 b ∧ ∀ k, 1 ≤ k → k ≤ a.2 → ReportOk doLog total k)
      (f := fun start s =>
        forInt 0 ds.itemCount s fun idx s => do
          ck (s.2 + 1)
          logProgress32 doLog total (s.2 + 1)
          let ls ← placeOne32 ds d32 threshold idx start s.1
          return (ls, s.2 + 1))
      (g := fun start ls =>
        forInt 0 ds.itemCount ls fun idx ls => do
          logProgress doLog total
          placeOne ds d threshold idx start ls) ?_ ⟨rfl, by simp, h, fun k _ _ => by simp only at *; omega⟩
    · rcases this with h | h
      · exact .inl h
      · refine .inr (RR.mono h fun a b h => ⟨h.1, fun k k0 k1 => h.2.2.2 k k0 ?_⟩)
        rw [h.2.1, max_eq_right hsub, htt]
        exact k1
    rintro start a b s0 s1 ⟨h1, h2, h3, h4⟩
    have hm := mul_lt_of s0 s1 c0
    have := UpTo.forInt (lo := 0) (hi := ds.itemCount) (s := a) (t := b)
      (S := fun idx a b => a.1 = b ∧ a.2 = start * ds.itemCount + idx ∧ LI ds l a.2 b ∧ ∀ k, 1 ≤ k → k ≤ a.2 → ReportOk doLog total k)
      (f := fun idx s => do
          ck (s.2 + 1)
          logProgress32 doLog total (s.2 + 1)
          let ls ← placeOne32 ds d32 threshold idx start s.1
          return (ls, s.2 + 1))
      (g := fun idx ls => do
          logProgress doLog total
          placeOne ds d threshold idx start ls) ?_ ⟨h1, by omega, h3, h4⟩
    · have e : max 0 ds.itemCount = ds.itemCount := by omega
      rw [e] at this
      have e2 : start * ds.itemCount + ds.itemCount = (start + 1) * ds.itemCount := by ring
      rwa [e2] at this
    rintro idx ⟨lsa, ca⟩ b i0 i1 ⟨h1, h2, h3, h4⟩
    simp only at h1 h2 h3 h4
    subst h1
    refine UpTo.ck fun _ _ => UpTo.bind (logProgress32_upTo doLog total (ca + 1)) fun _ _ hrep => ?_
    have pf := placeOne32_fits hd hD threshold (k := ca) hl hl1 (by omega) (by unfold intLimit at *; omega) i0 i1 s0 s1 h3
    rw [pf.eq]
    cases hp : placeOne ds d threshold idx start lsa with
    | ok ls' =>
      refine .inr (.ok ⟨rfl, by simp only; omega, pf.post hp, fun k k0 k1 => ?_⟩)
      simp only at k1
      rcases lt_or_ge k (ca + 1) with hk | hk
      · exact h4 k k0 (by omega)
      · have : k = ca + 1 := by omega
        rw [this]; exact hrep
    | throw e => exact .inr (.throw e)
    | ub w => exact .inr (.ub w)
  revert key
  generalize (forInt 0 (ds.itemLength - l + 1) (ls, (0 : Int)) _) = x
  generalize (forInt 0 (ds.itemLength - l + 1) ls _) = y
  intro key
  rcases key with rfl | key
  · exact .inl rfl
  cases key with
  | ok h => exact .inr (RR.ok h)
  | throw e => exact .inr (.throw e)
  | ub w => exact .inr (.ub w)

/-- From this many sub-series on, the report at `5 * (total / 5)` is out of range. -/
theorem report_overflow {total : Int} (h : 21474840 ≤ total) :
    ¬ ∀ k, 1 ≤ k → k ≤ total → ReportOk true total k := by
  intro hall
  have hd : total.tdiv 5 = total / 5 := Int.tdiv_eq_ediv_of_nonneg (by omega)
  have := hall (5 * (total / 5)) (by omega) (by omega) rfl (by rw [hd]; exact Int.mul_tmod_left _ _)
  omega

/-! ## All lengths -/

section count
variable {σ : Type}

/-- Two loops, when the state of the second one grows and stays below a limit until the end. -/
theorem forIntGo_upto {f g : Int → σ → Res σ} {I : σ → Prop} {μ : σ → Int} {M : Int} {hi : Int}
    (mono : ∀ i s s', g i s = .ok s' → I s → μ s ≤ μ s') :
    ∀ (k : ℕ) (lo : Int), lo + k ≤ hi →
      (∀ i s s', lo ≤ i → i < hi → I s → g i s = .ok s' → I s' ∧ (μ s' ≤ M → f i s = .ok s')) →
      ∀ s u, I s → forIntGo g k lo s = .ok u → I u ∧ μ s ≤ μ u ∧ (μ u ≤ M → forIntGo f k lo s = .ok u)
  | 0, lo, _, _, s, u, hs, hu => by
    cases hu; exact ⟨hs, le_rfl, fun _ => rfl⟩
  | k + 1, lo, hk, step, s, u, hs, hu => by
    obtain ⟨s', h1, h2⟩ := Res.bind_eq_ok.mp hu
    obtain ⟨hI, hf⟩ := step lo s s' le_rfl (by push_cast at hk; omega) hs h1
    obtain ⟨a, b, c⟩ := forIntGo_upto mono k (lo + 1) (by push_cast at hk; omega) (fun i s s' h0 h1 => step i s s' (by omega) h1) s' u hI h2
    have := mono lo s s' h1 hs
    refine ⟨a, by omega, fun hM => ?_⟩
    exact Res.bind_eq_ok.mpr ⟨s', hf (by omega), c hM⟩

theorem forInt_upto {f g : Int → σ → Res σ} {I : σ → Prop} {μ : σ → Int} {M : Int} {lo hi : Int}
    (mono : ∀ i s s', g i s = .ok s' → I s → μ s ≤ μ s')
    (step : ∀ i s s', lo ≤ i → i < hi → I s → g i s = .ok s' → I s' ∧ (μ s' ≤ M → f i s = .ok s')) {s u : σ} (hs : I s)
    (hu : forInt lo hi s g = .ok u) : I u ∧ (μ u ≤ M → forInt lo hi s f = .ok u) := by
  by_cases hh : lo ≤ hi
  · obtain ⟨a, -, c⟩ := forIntGo_upto mono _ lo (by omega) step s u hs hu
    exact ⟨a, c⟩
  · rw [forInt_of_le (by omega)] at hu
    cases hu
    exact ⟨hs, fun _ => forInt_of_le (by omega)⟩

/-- A loop that overflows at one of its steps, or agrees with another one up to there. -/
theorem forIntGo_hits {f g : Int → σ → Res σ} {w : String} {l : Int} {hi : Int} :
    ∀ (k : ℕ) (lo : Int), lo ≤ l → l < lo + k → lo + k ≤ hi →
      (∀ i s s', lo ≤ i → i < hi → g i s = .ok s' → (f i s = .ub w ∨ f i s = .ok s') ∧ (i = l → f i s = .ub w)) →
      ∀ s u, forIntGo g k lo s = .ok u → forIntGo f k lo s = .ub w
  | 0, lo, h0, h1, _, _, s, u, hu => by push_cast at h1; omega
  | k + 1, lo, h0, h1, h2, step, s, u, hu => by
    obtain ⟨s', e1, e2⟩ := Res.bind_eq_ok.mp hu
    obtain ⟨a, b⟩ := step lo s s' le_rfl (by push_cast at h2; omega) e1
    show (f lo s >>= forIntGo f k (lo + 1)) = .ub w
    rcases a with a | a
    · rw [a]; rfl
    · rcases eq_or_ne lo l with h | h
      · rw [b h]; rfl
      · rw [a]
        exact forIntGo_hits k (lo + 1) (by omega) (by push_cast at h1; omega) (by push_cast at h2; omega)
          (fun i s s' hi0 hi1 => step i s s' (by omega) hi1) s' u e2

/-- A loop whose steps overflow or keep below a limit, beside one that ends above it. -/
theorem forIntGo_above {f g : Int → σ → Res σ} {w : String} {μ : σ → Int} {M : Int} {hi : Int} :
    ∀ (k : ℕ) (lo : Int), lo + k ≤ hi →
      (∀ i s s', lo ≤ i → i < hi → g i s = .ok s' → f i s = .ub w ∨ f i s = .ok s' ∧ μ s' ≤ M) →
      ∀ s u, μ s ≤ M → forIntGo g k lo s = .ok u → M < μ u → forIntGo f k lo s = .ub w
  | 0, lo, _, _, s, u, hs, hu, hM => by cases hu; omega
  | k + 1, lo, h2, step, s, u, hs, hu, hM => by
    obtain ⟨s', e1, e2⟩ := Res.bind_eq_ok.mp hu
    show (f lo s >>= forIntGo f k (lo + 1)) = .ub w
    rcases step lo s s' le_rfl (by push_cast at h2; omega) e1 with a | ⟨a, b⟩
    · rw [a]; rfl
    · rw [a]
      exact forIntGo_above k (lo + 1) (by push_cast at h2; omega) (fun i s s' hi0 hi1 => step i s s' (by omega) hi1) s' u b e2 hM

end count

omit [DataT α] in
theorem Coord.small_default : Coord.Small Membership.default.prev := by
  simp [Coord.Small, Membership.default, intLimit]

omit [DataT α] in
theorem new32_fits {ds : Dataset α} (hd : ds.Small) {l : Int} (hl : 1 ≤ l) (hl1 : l ≤ ds.itemLength) :
    SameInt (LI ds l 0) (LocalSpace.new32 ds l) (LocalSpace.new ds l) := by
  have ⟨c0, l0, c1, l1, p, _⟩ := hd
  have hle : ds.itemCount * (ds.itemLength - l + 1) ≤ ds.itemCount * ds.itemLength := mul_le_mul_of_nonneg_left (by omega) c0
  have h0 : 0 ≤ ds.itemCount * (ds.itemLength - l + 1) := mul_nonneg c0 (by omega)
  unfold intLimit at c1 l1 p
  unfold LocalSpace.new32
  cks
  unfold LocalSpace.new
  simp only
  rw [if_neg (by omega)]
  refine SameInt.ok ⟨rfl, rfl, by simp, by simp, ?_⟩
  intro e he
  rw [List.eq_of_mem_replicate he]
  exact Coord.small_default

theorem group32_eq {ratio : α} (hb : BandNonneg ratio) {ds : Dataset α} (hd : ds.Small) (name : String) (threshold : α) {doLog : Int → Bool}
    (hlog : ∀ l, 2 ≤ l → l ≤ ds.itemLength → doLog l = true → (ds.itemLength - l + 1) * ds.itemCount ≤ 21474839)
    {gs gs' : GlobalSpace α} {n : Int} (h : gs.group ratio ds name threshold doLog = (.ok n, gs')) :
    gs'.Small ds ∧ (n ≤ 2147483647 → gs.group32 ratio ds name threshold doLog = (.ok n, gs')) := by
  have ⟨c0, l0, c1, l1, p, _⟩ := hd
  have l1' := l1
  unfold intLimit at l1'
  unfold GlobalSpace.group at h
  unfold GlobalSpace.group32
  simp only at h ⊢
  cases hdn : getDistance name with
  | throw e => rw [hdn] at h; simp at h
  | ub w => rw [hdn] at h; simp at h
  | ok dn =>
    rw [hdn] at h
    simp only at h ⊢
    rw [ck_eq (by constructor <;> omega)]
    simp only
    rw [if_neg (by omega)] at h ⊢
    have hD := fn32_fits hb dn
    split at h
    case h_2 => simp at h
    case h_3 => simp at h
    case h_1 locals m hrun =>
      simp only [Prod.mk.injEq, Res.ok.injEq] at h
      obtain ⟨rfl, rfl⟩ := h
      have key := forInt_upto (M := 2147483647) (μ := fun s : List (Option (LocalSpace α)) × Int => s.2)
        (I := fun s => len s.1 = ds.itemLength + 1 ∧ 0 ≤ s.2 ∧ ∀ ls, some ls ∈ s.1 → ls.Small ds)
        (f := fun i s => do
          let ls ← LocalSpace.new32 ds i
          let ls ← ls.generateGroups32 ds (dn.fn32 ratio) threshold (doLog i)
          let locals ← vset s.1 i (some ls)
          ck (s.2 + ls.getNumberOfGroups)
          return (locals, s.2 + ls.getNumberOfGroups))
        ?_ ?_ ?_ hrun
      · obtain ⟨⟨k1, k2, k3⟩, k4⟩ := key
        refine ⟨⟨by simp only [k1]; omega, k3⟩, fun hM => ?_⟩
        rw [k4 hM]
      · intro i s s' hs' _
        simp only [Res.bind_eq_ok] at hs'
        obtain ⟨_, _, ls, _, _, _, h⟩ := hs'
        cases h
        have := len_nonneg ls.groups
        simp only [LocalSpace.getNumberOfGroups]; omega
      · rintro i s s' i0 i1 ⟨I1, I2, I3⟩ hs'
        simp only [Res.bind_eq_ok] at hs'
        obtain ⟨ls0, h0, ls, h1, locals', h2, h3⟩ := hs'
        cases h3
        have n32 := new32_fits hd (l := i) (by omega) (by omega)
        have g32 := generateGroups32_fits hd hD threshold (l := i) (by omega) (by omega) (hlog i i0 (by omega)) (n32.post h0)
        obtain ⟨k, k0, hLI⟩ := g32.post h1
        have hlen : len locals' = len s.1 := by simp only [len, vset_len h2]
        have hnn := len_nonneg ls.groups
        refine ⟨⟨by simp only; omega, by simp only [LocalSpace.getNumberOfGroups]; omega, ?_⟩, ?_⟩
        · intro ls' hls'
          obtain ⟨-, -, rfl⟩ := vset_eq_ok.mp h2
          rcases List.mem_or_eq_of_mem_set hls' with hm | hm
          · exact I3 ls' hm
          · cases hm
            exact ⟨fun g hg => (hLI.groups g hg).small, hLI.map⟩
        · intro hM
          simp only [LocalSpace.getNumberOfGroups] at hM
          simp only [n32.eq, h0, Res.bind_ok, g32.eq, h1, h2]
          rw [ck_eq (by simp only [LocalSpace.getNumberOfGroups]; constructor <;> omega)]
          rfl
      · refine ⟨?_, le_rfl, ?_⟩
        · simp; omega
        · intro ls hls
          simp at hls

theorem group32_ub {ratio : α} (hb : BandNonneg ratio) {ds : Dataset α} (hd : ds.Small) (name : String) (threshold : α) {doLog : Int → Bool}
    {gs gs' : GlobalSpace α} {n : Int} (h : gs.group ratio ds name threshold doLog = (.ok n, gs'))
    (hbad : 2147483647 < n ∨ ∃ l, 2 ≤ l ∧ l ≤ ds.itemLength ∧ doLog l = true ∧ 21474839 < (ds.itemLength - l + 1) * ds.itemCount) :
    (gs.group32 ratio ds name threshold doLog).1 = .ub "signed overflow" := by
  have ⟨c0, l0, c1, l1, p, _⟩ := hd
  have l1' := l1
  unfold intLimit at l1'
  unfold GlobalSpace.group at h
  unfold GlobalSpace.group32
  simp only at h ⊢
  cases hdn : getDistance name with
  | throw e => rw [hdn] at h; simp at h
  | ub w => rw [hdn] at h; simp at h
  | ok dn =>
    rw [hdn] at h
    simp only at h ⊢
    rw [ck_eq (by constructor <;> omega)]
    simp only
    rw [if_neg (by omega)] at h ⊢
    have hD := fn32_fits hb dn
    split at h
    case h_2 => simp at h
    case h_3 => simp at h
    case h_1 locals m hrun =>
      simp only [Prod.mk.injEq, Res.ok.injEq] at h
      obtain ⟨rfl, rfl⟩ := h
      have step : ∀ (i : Int) (s s' : List (Option (LocalSpace α)) × Int), 2 ≤ i → i < ds.itemLength + 1 →
          (do
            let ls ← LocalSpace.new ds i
            let ls ← ls.generateGroups ds (dn.fn ratio) threshold (doLog i)
            let locals ← vset s.1 i (some ls)
            return (locals, s.2 + ls.getNumberOfGroups)) = .ok s' →
          (do
            let ls ← LocalSpace.new32 ds i
            let ls ← ls.generateGroups32 ds (dn.fn32 ratio) threshold (doLog i)
            let locals ← vset s.1 i (some ls)
            ck (s.2 + ls.getNumberOfGroups)
            return (locals, s.2 + ls.getNumberOfGroups)) = .ub "signed overflow" ∨
          ((do
            let ls ← LocalSpace.new32 ds i
            let ls ← ls.generateGroups32 ds (dn.fn32 ratio) threshold (doLog i)
            let locals ← vset s.1 i (some ls)
            ck (s.2 + ls.getNumberOfGroups)
            return (locals, s.2 + ls.getNumberOfGroups)) = .ok s' ∧ s'.2 ≤ 2147483647 ∧
            ∀ k, 1 ≤ k → k ≤ (ds.itemLength - i + 1) * ds.itemCount → ReportOk (doLog i) ((ds.itemLength - i + 1) * ds.itemCount) k) := by
        intro i s s' i0 i1 hs'
        simp only [Res.bind_eq_ok] at hs'
        obtain ⟨ls0, h0, ls, h1, locals', h2, h3⟩ := hs'
        cases h3
        have n32 := new32_fits hd (l := i) (by omega) (by omega)
        simp only [n32.eq, h0, Res.bind_ok]
        rcases generateGroups32_upTo hd hD threshold (l := i) (by omega) (by omega) (doLog i) (n32.post h0) with g32 | g32
        · exact .inl (by rw [g32]; rfl)
        · rw [h1] at g32
          generalize hx : LocalSpace.generateGroups32 ds (dn.fn32 ratio) threshold (doLog i) ls0 = x at g32
          cases g32 with
          | @ok a _ hh =>
            obtain ⟨e, hrep⟩ := hh
            rw [e]
            simp only [Res.bind_ok, h2]
            by_cases he : -2147483648 ≤ s.2 + LocalSpace.getNumberOfGroups ls ∧ s.2 + LocalSpace.getNumberOfGroups ls ≤ 2147483647
            · rw [ck_eq he]
              exact .inr ⟨rfl, he.2, hrep⟩
            · rw [ck_ub (by omega)]
              exact .inl rfl
      have over : forInt 2 (ds.itemLength + 1) (List.replicate (ds.itemLength + 1).toNat none, (0 : Int)) (fun i s => do
          let ls ← LocalSpace.new32 ds i
          let ls ← ls.generateGroups32 ds (dn.fn32 ratio) threshold (doLog i)
          let locals ← vset s.1 i (some ls)
          ck (s.2 + ls.getNumberOfGroups)
          return (locals, s.2 + ls.getNumberOfGroups)) = .ub "signed overflow" := by
        rcases hbad with hn | ⟨l, h2, h3, hlog, hbig⟩
        · have hlen : 2 ≤ ds.itemLength + 1 := by
            by_contra hc
            rw [forInt_of_le (by omega)] at hrun
            cases hrun
            omega
          refine forIntGo_above (M := 2147483647) (μ := fun s => s.2) (hi := ds.itemLength + 1) _ 2 (by omega) ?_ _ _ (by simp) hrun hn
          intro i s s' i0 i1 hs'
          rcases step i s s' i0 i1 hs' with h | ⟨h, h', -⟩
          · exact .inl h
          · exact .inr ⟨h, h'⟩
        · refine forIntGo_hits (l := l) (hi := ds.itemLength + 1) _ 2 h2 (by omega) (by omega) ?_ _ _ hrun
          intro i s s' i0 i1 hs'
          rcases step i s s' i0 i1 hs' with h | ⟨h, h', hrep⟩
          · exact ⟨.inl h, fun _ => h⟩
          · refine ⟨.inr h, ?_⟩
            rintro rfl
            rw [hlog] at hrep
            exact absurd hrep (report_overflow (by omega))
      rw [over]

/-! ## Matching -/

theorem traverseStep32_fits {ratio : α} (hb : BandNonneg ratio) {ql tl : Int} (q0 : 1 ≤ ql) (q1 : ql ≤ intLimit) (t1 : tl ≤ intLimit)
    {s : OrderState} (h0 : 0 ≤ s.low) (h1 : s.low ≤ ql) (h2 : 0 ≤ s.high) (h3 : s.high ≤ intLimit + 1) :
    SameInt (fun s => 0 ≤ s.low ∧ s.low ≤ ql ∧ 0 ≤ s.high ∧ s.high ≤ intLimit + 1) (traverseStep32 ratio ql tl s) (traverseStep ratio ql tl s) := by
  have q1' := q1
  have t1' := t1
  have h3' := h3
  unfold intLimit at q1' t1' h3'
  unfold traverseStep32 traverseStep
  have hA : ∀ s : OrderState, s.low = (if s.low < 2 then { s with lowStop := true } else s).low ∧ s.high = (if s.low < 2 then { s with lowStop := true } else s).high ∧
      ((if s.low < 2 then { s with lowStop := true } else s).lowStop = false → 2 ≤ s.low) := by
    intro s
    split
    · simp
    · exact ⟨rfl, rfl, fun _ => by omega⟩
  have hB : ∀ s : OrderState, s.low = (if s.high > tl then { s with highStop := true } else s).low ∧ s.high = (if s.high > tl then { s with highStop := true } else s).high ∧
      s.lowStop = (if s.high > tl then { s with highStop := true } else s).lowStop ∧
      ((if s.high > tl then { s with highStop := true } else s).highStop = false → s.high ≤ tl) := by
    intro s
    split
    · simp
    · exact ⟨rfl, rfl, rfl, fun _ => by omega⟩
  obtain ⟨a1, a2, a3⟩ := hA s
  generalize (if s.low < 2 then { s with lowStop := true } else s) = sa at a1 a2 a3 ⊢
  obtain ⟨b1, b2, b3, b4⟩ := hB sa
  simp only
  generalize (if sa.high > tl then { sa with highStop := true } else sa) = sb at b1 b2 b3 b4 ⊢
  have fin : ∀ s : OrderState, 0 ≤ s.low → s.low ≤ ql → s.high = sb.high → (s.highStop = false → s.high ≤ tl) →
      SameInt (fun s => 0 ≤ s.low ∧ s.low ≤ ql ∧ 0 ≤ s.high ∧ s.high ≤ intLimit + 1)
        (if (!s.highStop) = true then do
          let r ← calculateWarpingBandSize32 ratio s.high
          ck (ql + r)
          ck (s.high + 1)
          if ql + r ≥ s.high then
            pure { s with order := s.order ++ [s.high], high := s.high + 1 }
          else pure { s with highStop := true }
        else pure s)
        (if (!s.highStop) = true then do
          let r ← calculateWarpingBandSize ratio s.high
          if ql + r ≥ s.high then
            pure { s with order := s.order ++ [s.high], high := s.high + 1 }
          else pure { s with highStop := true }
        else pure s) := by
    intro s e1 e2 e3 e4
    refine SameInt.ite (fun hh => ?_) fun _ => SameInt.ok ⟨e1, e2, by omega, by omega⟩
    have hle := e4 (by simpa using hh)
    refine SameInt.bind (band32 hb (by omega) (by omega)) fun r hr => ?_
    refine SameInt.ck (by constructor <;> omega) ?_
    refine SameInt.ck (by constructor <;> omega) ?_
    exact SameInt.ite (fun _ => SameInt.ok ⟨e1, e2, by simp only; omega, by simp only; omega⟩) fun _ => SameInt.ok ⟨e1, e2, by simp only; omega, by simp only; omega⟩
  refine SameInt.ite (fun hh => ?_) fun _ => fin sb (by omega) (by omega) rfl (fun h => by have := b4 h; omega)
  have hlow : 2 ≤ s.low := a3 (by rw [b3]; simpa using hh)
  refine SameInt.bind (band32 hb (by omega) q1) fun r hr => ?_
  refine SameInt.ck (by constructor <;> omega) ?_
  refine SameInt.ck (by constructor <;> omega) ?_
  refine SameInt.ite (fun _ => ?_) fun _ => ?_
  · exact fin _ (by simp only; omega) (by simp only; omega) rfl (fun h => by have := b4 h; simp only; omega)
  · exact fin _ (by simp only; omega) (by simp only; omega) rfl (fun h => by have := b4 h; simp only; omega)

theorem traverseLoop32_eq {ratio : α} (hb : BandNonneg ratio) {ql tl : Int} (q0 : 1 ≤ ql) (q1 : ql ≤ intLimit) (t1 : tl ≤ intLimit) :
    ∀ (k : ℕ) (s : OrderState), 0 ≤ s.low → s.low ≤ ql → 0 ≤ s.high → s.high ≤ intLimit + 1 →
      traverseLoop32 ratio ql tl k s = traverseLoop ratio ql tl k s
  | 0, s, _, _, _, _ => by unfold traverseLoop32 traverseLoop; rfl
  | k + 1, s, h0, h1, h2, h3 => by
    unfold traverseLoop32 traverseLoop
    split
    · rfl
    · exact (SameInt.bind (Q := fun _ => True) (traverseStep32_fits hb q0 q1 t1 h0 h1 h2 h3) fun s' hs' =>
        SameInt.of_eq (traverseLoop32_eq hb q0 q1 t1 k s' hs'.1 hs'.2.1 hs'.2.2.1 hs'.2.2.2) fun _ _ => trivial).eq

theorem generateTraverseOrder32_eq {ratio : α} (hb : BandNonneg ratio) {ql tl : Int} (q0 : 1 ≤ ql) (q1 : ql ≤ intLimit) (t1 : tl ≤ intLimit) :
    generateTraverseOrder32 ratio ql tl = generateTraverseOrder ratio ql tl := by
  have q1' := q1
  unfold intLimit at q1'
  unfold generateTraverseOrder32 generateTraverseOrder
  rw [ck_eq (by constructor <;> omega), ck_eq (by constructor <;> omega)]
  simp only [Res.bind_ok]
  rw [traverseLoop32_eq hb q0 q1 t1 _ _ (by simp only; omega) (by simp only; omega) (by simp only; omega) (by simp only; omega)]

theorem bestMatchLoop32_fits {ds : Dataset α} (hd : ds.Small) {d32 d : Dist α} (hD : ShortSame d32 d) {g : Group α} (hg : g.Small ds)
    {mm : List Membership} (hm : ∀ e ∈ mm, Coord.Small e.prev) :
    ∀ (k : ℕ) (cur : Coord) (best : α) (bestM : Coord) (q : Series α), cur.Small → bestM.Small → len q.vals ≤ intLimit →
      SameInt (fun y => Coord.Small y.2.1) (g.bestMatchLoop32 ds mm d32 k cur best bestM q) (g.bestMatchLoop ds mm d k cur best bestM q)
  | 0, cur, best, bestM, q, hc, hbm, hq => by
    unfold Group.bestMatchLoop32 Group.bestMatchLoop
    exact SameInt.ite (fun _ => SameInt.ok hbm) fun _ => .ub _
  | k + 1, cur, best, bestM, q, hc, hbm, hq => by
    have ⟨c0, l0, c1, l1, p, _⟩ := hd
    unfold Group.bestMatchLoop32 Group.bestMatchLoop
    refine SameInt.ite (fun _ => SameInt.ok hbm) fun _ => ?_
    have ⟨cc0, cc1, cc2, cc3⟩ := hc
    have m0 := hg.member0
    have m1 := hg.member
    have s0 := hg.sub0
    have s1 := hg.sub
    unfold intLimit at cc1 cc3 m1 c1 l1 p
    refine SameInt.ck (by constructor <;> omega) ?_
    refine SameInt.bind (getTimeSeries32_fits hd _ _ _) fun v hv => SameInt.both fun vals hvals => ?_
    refine SameInt.bind (hD q (Series.mk' vals) best hq (resolve_short hd hvals)) fun y hy => ?_
    obtain ⟨x, q', _⟩ := y
    have hmul := mul_lt_of hv.1 hv.2.1 s0
    have hle : ds.itemCount * g.subCount ≤ ds.itemCount * ds.itemLength := mul_le_mul_of_nonneg_left s1 c0
    simp only
    refine SameInt.ck (by constructor <;> omega) ?_
    refine SameInt.ck (by constructor <;> omega) ?_
    refine SameInt.both fun e he => ?_
    have hes := hm e (List.mem_of_getElem? (vget_eq_ok.mp he).2)
    refine bestMatchLoop32_fits hd hD hg hm k e.prev _ _ q' hes ?_ (by have := hy.1; simp only at this; rw [this]; exact hq)
    split
    · exact hc
    · exact hbm

theorem groupBestMatch32_eq {ds : Dataset α} (hd : ds.Small) {d32 d : Dist α} (hD : ShortSame d32 d) {g : Group α} (hg : g.Small ds)
    {mm : List Membership} (hm : ∀ e ∈ mm, Coord.Small e.prev) {q : Series α} (hq : len q.vals ≤ intLimit) :
    g.getBestMatch32 ds mm q d32 = g.getBestMatch ds mm q d := by
  refine SameInt.eq (P := fun _ => True) ?_
  unfold Group.getBestMatch32 Group.getBestMatch
  refine SameInt.bind (bestMatchLoop32_fits hd hD hg hm _ g.last DataT.inf (0, 0) q hg.last (by simp [Coord.Small, intLimit]) hq) fun y hy => ?_
  obtain ⟨best, bestM, q'⟩ := y
  have ⟨cc0, cc1, cc2, cc3⟩ := hy
  have m0 := hg.member0
  have m1 := hg.member
  unfold intLimit at cc1 cc3 m1
  simp only at cc2 cc3 ⊢
  refine SameInt.ck (by constructor <;> omega) ?_
  exact SameInt.bind (getTimeSeries32_fits hd _ _ _) fun v _ => SameInt.ok trivial

omit [DataT α] in
theorem LocalSpace.Small.set {ds : Dataset α} {locals : List (Option (LocalSpace α))} (h : ∀ ls, some ls ∈ locals → ls.Small ds)
    {ls : LocalSpace α} (hls : ls.Small ds) (i : ℕ) : ∀ ls', some ls' ∈ locals.set i (some ls) → ls'.Small ds := by
  intro ls' h'
  rcases List.mem_or_eq_of_mem_set h' with h' | h'
  · exact h ls' h'
  · cases h'; exact hls

theorem searchLoop32_fits {ds : Dataset α} (hd : ds.Small) {d32 d : Dist α} (hD : ShortSame d32 d) (n : ℕ) :
    ∀ (order : List Int) (s : SearchState α), (∀ ls, some ls ∈ s.locals → ls.Small ds) → s.locals.length = n → len s.query.vals ≤ intLimit →
      SameInt (fun s => (∀ ls, some ls ∈ s.locals → ls.Small ds) ∧ s.locals.length = n ∧ len s.query.vals ≤ intLimit) (searchLoop ds d32 order s)
        (searchLoop ds d order s)
  | [], s, h1, hn, h2 => SameInt.ok ⟨h1, hn, h2⟩
  | i :: is, s, h1, hn, h2 => by
    unfold searchLoop
    refine SameInt.bind (P := fun s => (∀ ls, some ls ∈ s.locals → ls.Small ds) ∧ s.locals.length = n ∧ len s.query.vals ≤ intLimit) ?_
      fun s' hs' => searchLoop32_fits hd hD n is s' hs'.1 hs'.2.1 hs'.2.2
    unfold searchStep
    refine SameInt.both fun o ho => ?_
    cases o with
    | none => exact .ub _
    | some ls =>
      have hls := h1 ls (List.mem_of_getElem? (vget_eq_ok.mp ho).2)
      simp only
      refine SameInt.bind (P := fun y => y.2.1.Small ds ∧ y.2.2.vals = s.query.vals) ?_ fun y hy => ?_
      · unfold LocalSpace.getBestGroup
        refine SameInt.bind (nearest_fits hd hD (fun g => g.Small ds) (fun g hg => hg) (fun g c hg => hg.cache c) hls.groups h2 _) fun st hst => ?_
        exact SameInt.ok ⟨⟨hst.1, hls.map⟩, hst.2.2⟩
      · obtain ⟨⟨k, dist⟩, ls', q'⟩ := y
        simp only at hy ⊢
        refine SameInt.both fun locals' hset => ?_
        obtain ⟨-, -, rfl⟩ := vset_eq_ok.mp hset
        have hall := LocalSpace.Small.set h1 hy.1 i.toNat
        refine SameInt.ite (fun _ => SameInt.ok ⟨hall, by simp [hn], by simp only; rw [hy.2]; exact h2⟩) fun _ =>
          SameInt.ok ⟨hall, by simp [hn], by simp only; rw [hy.2]; exact h2⟩

theorem globalBestMatch32_fits (junk : α) {ratio : α} (hb : BandNonneg ratio) {ds : Dataset α} (hd : ds.Small) {gs : GlobalSpace α}
    (hgs : gs.Small ds) {q : Series α} (hq : len q.vals ≤ intLimit) :
    SameInt (fun y => y.2.Small ds) (gs.getBestMatch32 junk ratio ds q) (gs.getBestMatch junk ratio ds q) := by
  have hD := cascade32_fits junk hb
  unfold GlobalSpace.getBestMatch32 GlobalSpace.getBestMatch
  refine SameInt.ite (fun _ => .throw _) fun hql => ?_
  have hlen := hgs.lengths
  have hlen0 := len_nonneg gs.locals
  have hlen' := hlen
  unfold intLimit at hlen'
  refine SameInt.ck (by constructor <;> omega) ?_
  rw [generateTraverseOrder32_eq hb (ql := q.length) (by omega) hq (by omega)]
  refine SameInt.both fun order _ => ?_
  refine SameInt.bind (searchLoop32_fits hd hD gs.locals.length order
    { locals := gs.locals, query := q, best := DataT.inf, bestGroup := none } hgs.locals rfl hq) fun s hs => ?_
  cases hbg : s.bestGroup with
  | none => exact .ub _
  | some lk =>
    obtain ⟨l, k⟩ := lk
    simp only
    refine SameInt.both fun o ho => ?_
    cases o with
    | none => exact .ub _
    | some ls =>
      have hls := hs.1 ls (List.mem_of_getElem? (vget_eq_ok.mp ho).2)
      simp only
      refine SameInt.both fun g hg => ?_
      rw [groupBestMatch32_eq hd hD (hls.groups g (List.mem_of_getElem? (vget_eq_ok.mp hg).2)) hls.map hs.2.2]
      refine SameInt.both fun c _ => SameInt.ok ⟨?_, hs.1⟩
      simp only [len] at hlen ⊢
      rw [hs.2.1]; exact hlen

end Onex
