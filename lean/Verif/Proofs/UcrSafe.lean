import Verif.Proofs.AnyDist
import Verif.Proofs.LemireExt
import Verif.Model.Ucr

/-!
# The UCR search stays within its arrays, whatever the numbers
-/

namespace Onex
open DataT

set_option linter.unusedSectionVars false

variable {α : Type} [DataT α]

namespace Res

/-- The computation ends with a value. -/
abbrev Def {β : Type} (x : Res β) : Prop := x.Ensures fun _ => True

theorem Def.of {β : Type} {x : Res β} {P : β → Prop} (h : x.Ensures P) : x.Def := h.mono fun _ _ => trivial

end Res

theorem vget_def {β : Type} {l : List β} {i : Int} (h0 : 0 ≤ i) (h1 : i < l.length) : (vget l i).Def := by
  obtain ⟨v, h, _⟩ := vget_ok (l := l) h0 h1
  exact ⟨v, h, trivial⟩

theorem vset_def {β : Type} {l : List β} {i : Int} (v : β) (h0 : 0 ≤ i) (h1 : i < l.length) :
    (vset l i v).Ensures fun l' => l'.length = l.length := by
  rw [vset_ok v h0 h1, Res.ensures_ok]
  simp

theorem zAt_def {t : List α} {mean std : α} {k : Int} (h0 : 0 ≤ k) (h1 : k < t.length) : (zAt t mean std k).Def := by
  unfold zAt
  exact (vget_def h0 h1).bind fun _ _ => ⟨_, rfl, trivial⟩

/-! ## The lower bounds -/

/-- Steps through a computation whose accesses are in range. -/
macro "in_range" : tactic => `(tactic| repeat' first
  | (refine Res.Ensures.bind (vget_def (by omega) (by omega)) fun _ _ => ?_)
  | (refine Res.Ensures.bind (vset_def _ (by omega) (by omega)) fun _ _ => ?_)
  | (refine Res.Ensures.bind (zAt_def (by omega) (by omega)) fun _ _ => ?_)
  | (simp only [Res.pure_eq, Res.bind_ok, Res.ensures_ok]; omega)
  | (refine Res.Ensures.mono (vset_def _ (by omega) (by omega)) fun _ _ => ?_; omega)
  | simp only [Res.pure_eq, Res.bind_ok]
  | split)

theorem lbKim_def {t q : List α} {m j : Int} {mean std bsf : α} (hm : 3 ≤ m) (ht : (t.length : Int) = 2 * m) (hq : (q.length : Int) = m) (hj : 0 ≤ j)
    (hj' : j < m) : (lbKim t q j m mean std bsf).Def := by
  unfold lbKim
  refine (zAt_def (by omega) (by omega)).bind fun x0 _ => ?_
  refine (zAt_def (by omega) (by omega)).bind fun y0 _ => ?_
  refine (vget_def (by omega) (by omega)).bind fun q0 _ => ?_
  refine (vget_def (by omega) (by omega)).bind fun qe _ => ?_
  dsimp only
  split
  · exact ⟨_, rfl, trivial⟩
  refine (zAt_def (by omega) (by omega)).bind fun x1 _ => ?_
  refine (vget_def (by omega) (by omega)).bind fun q1 _ => ?_
  split
  · exact ⟨_, rfl, trivial⟩
  refine (zAt_def (by omega) (by omega)).bind fun y1 _ => ?_
  refine (vget_def (by omega) (by omega)).bind fun qf _ => ?_
  split
  · exact ⟨_, rfl, trivial⟩
  refine (zAt_def (by omega) (by omega)).bind fun x2 _ => ?_
  refine (vget_def (by omega) (by omega)).bind fun q2 _ => ?_
  split
  · exact ⟨_, rfl, trivial⟩
  refine (zAt_def (by omega) (by omega)).bind fun y2 _ => ?_
  refine (vget_def (by omega) (by omega)).bind fun qg _ => ?_
  exact ⟨_, rfl, trivial⟩

/-- What `qsort` leaves in `order` are indices of the query. -/
def Indices (order : List Int) (m : Int) : Prop := ∀ i, 0 ≤ i → i < m → ∃ o, vget order i = .ok o ∧ 0 ≤ o ∧ o < m

theorem lbKeogh_def {order : List Int} {t uo lo cb : List α} {m j : Int} {mean std bsf : α} (ho : Indices order m) (ht : (t.length : Int) = 2 * m)
    (hu : (uo.length : Int) = m) (hl : (lo.length : Int) = m) (hc : (cb.length : Int) = m) (hj : 0 ≤ j) (hj' : j < m) :
    (lbKeogh order t uo lo cb j m mean std bsf).Ensures fun s => (s.2.length : Int) = m := by
  unfold lbKeogh
  refine forBrk_keep (fun s : α × List α => (s.2.length : Int) = m) hc fun i s h0 h1 hs => ?_
  unfold lbKeoghStep
  split
  · obtain ⟨o, h2, h3, h4⟩ := ho i h0 h1
    rw [h2]
    simp only [Res.bind_ok]
    refine (zAt_def (by omega) (by omega)).bind fun x _ => ?_
    refine (vget_def (by omega) (by omega)).bind fun u _ => ?_
    in_range
  · rw [Res.pure_eq, Res.ensures_ok]
    exact hs

theorem lbKeoghData_def {order : List Int} {qo cb lBuff uBuff : List α} {m off : Int} {mean std bsf : α} (ho : Indices order m)
    (hq : (qo.length : Int) = m) (hc : (cb.length : Int) = m) (h0 : 0 ≤ off) (hl : off + m ≤ lBuff.length) (hu : off + m ≤ uBuff.length) :
    (lbKeoghData order qo cb lBuff uBuff off m mean std bsf).Ensures fun s => (s.2.length : Int) = m := by
  unfold lbKeoghData
  refine forBrk_keep (fun s : α × List α => (s.2.length : Int) = m) hc fun i s i0 i1 hs => ?_
  unfold lbKeoghDataStep
  split
  · obtain ⟨o, h2, h3, h4⟩ := ho i i0 i1
    rw [h2]
    simp only [Res.bind_ok]
    refine (zAt_def (by omega) (by omega)).bind fun uu _ => ?_
    refine (zAt_def (by omega) (by omega)).bind fun ll _ => ?_
    refine (vget_def (by omega) (by omega)).bind fun q _ => ?_
    refine (vset_def _ h3 (by omega)).bind fun cb' h => ?_
    rw [Res.pure_eq, Res.ensures_ok]
    dsimp only
    omega
  · rw [Res.pure_eq, Res.ensures_ok]
    exact hs

theorem cumulate_def {src cb : List α} {m : Int} (hm : 1 ≤ m) (hs : (src.length : Int) = m) (hc : (cb.length : Int) = m) :
    (cumulate m src cb).Ensures fun c => (c.length : Int) = m := by
  unfold cumulate
  refine (vget_def (by omega) (by omega)).bind fun e _ => ?_
  refine (vset_def e (by omega) (by omega)).bind fun cb' h => ?_
  refine forInt_keep (fun c : List α => (c.length : Int) = m) (by omega) fun n c h0 h1 hc' => ?_
  refine (vget_def (by omega) (by omega)).bind fun x _ => ?_
  refine (vget_def (by omega) (by omega)).bind fun y _ => ?_
  refine (vset_def _ (by omega) (by omega)).mono fun c' h' => ?_
  omega

/-! ## `dtw` -/

theorem dtwCell_def {A B prev : List α} {m r i j : Int} {s : DtwInner α} (hA : (A.length : Int) = m) (hB : (B.length : Int) = m)
    (hp : (prev.length : Int) = 2 * r + 1) (hi : 0 ≤ i) (hi' : i < m) (hj : 0 ≤ j) (hj' : j < m) (h1 : i - r ≤ j) (h2 : j ≤ i + r)
    (hs : (s.cost.length : Int) = 2 * r + 1 ∧ s.k = j + r - i) :
    (dtwCell A B r i prev j s).Ensures fun s' => (s'.cost.length : Int) = 2 * r + 1 ∧ s'.k = j + 1 + r - i := by
  obtain ⟨hc, hk⟩ := hs
  unfold dtwCell
  split
  · refine (vget_def (by omega) (by omega)).bind fun a _ => ?_
    refine (vget_def (by omega) (by omega)).bind fun b _ => ?_
    refine (vset_def _ (by omega) (by omega)).bind fun c h => ?_
    refine (vget_def (by omega) (by omega)).bind fun v _ => ?_
    rw [Res.pure_eq, Res.ensures_ok]
    dsimp only
    omega
  · in_range

/-- The rows before row `i` are done. -/
def RowsDone (m r i : Int) (s : DtwOuter α) : Prop :=
  (s.cost.length : Int) = 2 * r + 1 ∧ (s.prev.length : Int) = 2 * r + 1 ∧ s.ret = none ∧ (i = m → s.k = r + 1)

theorem dtw_def {A B cb : List α} {m r : Int} {bsf : α} (hm : 1 ≤ m) (hr : 0 ≤ r) (hA : (A.length : Int) = m) (hB : (B.length : Int) = m)
    (hc : (cb.length : Int) = m) : (dtw A B cb m r bsf).Def := by
  unfold dtw
  refine Res.Ensures.bind (forBrk_ensures (RowsDone m r) (fun s => s.ret.isSome) (by omega) ?_ ?_) ?_
  · refine ⟨?_, ?_, rfl, fun h => absurd h (by omega)⟩ <;> simp <;> omega
  · rintro i s h0 h1 ⟨a1, a2, a3, _⟩
    unfold dtwRow
    refine Res.Ensures.bind (forInt_ensures (fun j (s : DtwInner α) => (s.cost.length : Int) = 2 * r + 1 ∧ s.k = j + r - i)
      (by omega) ⟨a1, by dsimp only; omega⟩ ?_) ?_
    · intro j q j0 j1 hq
      exact dtwCell_def hA hB a2 h0 h1 (by omega) (by omega) (by omega) (by omega) hq
    · rintro q ⟨b1, b2⟩
      extract_lets jp
      have hjp : ∀ e, (jp e).Ensures fun
          | .next s' => RowsDone m r (i + 1) s'
          | .brk s' => s'.ret.isSome = true := by
        intro e
        cases e with
        | some v => exact ⟨_, rfl, rfl⟩
        | none =>
          refine ⟨_, rfl, a2, b1, rfl, ?_⟩
          dsimp only
          omega
      split
      · refine (vget_def (by omega) (by omega)).bind fun c _ => ?_
        simp only [Res.pure_eq, Res.bind_ok]
        exact (hjp _).mono fun e h => by cases e <;> exact h
      · refine Res.Ensures.mono (hjp none) fun e h => ?_
        cases e <;> exact h
  · rintro s (⟨_, a2, a3, a4⟩ | h)
    · rw [a3]
      have := a4 rfl
      exact vget_def (by omega) (by omega)
    · cases e : s.ret with
      | none => rw [e] at h; cases h
      | some v => exact ⟨v, rfl, trivial⟩

/-! ## The envelope -/

theorem lemire_def {t l u : List α} {n r : ℕ} (hn : n ≤ t.length) (hl : n ≤ l.length) (hu : n ≤ u.length) (hr : r < n) :
    (lowerUpperLemire t (n : Int) (r : Int) l u).Ensures fun s => s.1.length = l.length ∧ s.2.length = u.length := by
  obtain ⟨⟨l', u'⟩, h1, ⟨hl1, _⟩, ⟨hu1, _⟩⟩ := lemire_spec (v := fun _ => (0 : ℕ)) (t := t.take n)
    (fun i j hi hj => ⟨fun _ => le_refl _, fun _ => le_refl _⟩) (r := r) (l0 := l.take n) (u0 := u.take n)
    (by simp; omega) (by simp; omega) (by simp; omega)
  have e : len (t.take n) = (n : Int) := by simp [len]; omega
  rw [e] at h1
  have h2 := lemire_ext (t2 := t.drop n) (l2 := l.drop n) (u2 := u.drop n) h1
  simp only [List.take_append_drop] at h2
  rw [h2, Res.ensures_ok]
  dsimp only at hl1 hu1 ⊢
  simp only [List.length_append, hl1, hu1, List.length_take, List.length_drop]
  omega

/-! ## The query -/

/-- The prepared query has its sizes. -/
structure QuerySized (Q : UcrQuery α) (m r : Int) : Prop where
  hm : Q.m = m
  hr : Q.r = r
  q : (Q.q.length : Int) = m
  qo : (Q.qo.length : Int) = m
  uo : (Q.uo.length : Int) = m
  lo : (Q.lo.length : Int) = m
  order : Indices Q.order m

theorem readQuery_def {m : Int} {file q : List α} (hq : (q.length : Int) = m) :
    (readQuery m file q).Ensures fun s => (s.q.length : Int) = m := by
  unfold readQuery
  refine forBrk_keep (fun s : ReadState α => (s.q.length : Int) = m) hq fun i s h0 h1 hs => ?_
  cases s.rest with
  | nil => exact ⟨_, rfl, hs⟩
  | cons d rest =>
    dsimp only
    in_range

theorem prepare_def {junk : α} {order : List Int} {file : List α} {m r : ℕ} (ho : Indices order m) (hr : r < m) :
    (prepare junk order file m r).Ensures fun Q => QuerySized Q m r := by
  unfold prepare
  dsimp only
  refine (readQuery_def (by simp)).bind fun s hs => ?_
  refine Res.Ensures.bind (forInt_keep (fun q : List α => (q.length : Int) = m) hs fun i q h0 h1 hq => ?_) fun q hq => ?_
  · in_range
  refine (lemire_def (by omega) (by simp) (by simp) hr).bind ?_
  rintro ⟨l, u⟩ ⟨hl, hu⟩
  simp only [List.length_replicate, Int.toNat_natCast] at hl hu ⊢
  refine Res.Ensures.bind (forInt_keep (fun s : List α × List α × List α => (s.1.length : Int) = m ∧ (s.2.1.length : Int) = m ∧ (s.2.2.length : Int) = m)
    (by simp) fun i s h0 h1 hs => ?_) ?_
  · obtain ⟨o, h2, h3, h4⟩ := ho i h0 h1
    rw [h2]
    simp only [Res.bind_ok]
    in_range
  · rintro ⟨qo, uo, lo⟩ ⟨h1, h2, h3⟩
    exact ⟨_, rfl, rfl, rfl, hq, h1, h2, h3, ho⟩

/-! ## Windows -/

/-- The working arrays have their sizes. -/
structure StateSized (s : UcrState α) (m : Int) : Prop where
  t : (s.t.length : Int) = 2 * m
  cb : (s.cb.length : Int) = m
  cb1 : (s.cb1.length : Int) = m
  cb2 : (s.cb2.length : Int) = m
  tz : (s.tz.length : Int) = m

/-- What is reported: nothing, or a window that starts at `pos` or before. -/
def Reported (s : UcrState α) (pos : Int) : Prop := s.loc = 0 ∧ s.bsf = infTrillion ∨ 0 ≤ s.loc ∧ s.loc ≤ pos

theorem Reported.le {s s' : UcrState α} {p p' : Int} (h : Reported s p) (e1 : s'.loc = s.loc) (e2 : s'.bsf = s.bsf) (hp : p ≤ p' ∨ p < 0) :
    Reported s' p' := by
  rcases h with ⟨h1, h2⟩ | ⟨h1, h2⟩
  · exact Or.inl ⟨e1.trans h1, e2.trans h2⟩
  · refine Or.inr ⟨by omega, by omega⟩

theorem candidate_def {Q : UcrQuery α} {lBuff uBuff : List α} {mean std : α} {j off pos : Int} {s : UcrState α} {m r : Int} (hQ : QuerySized Q m r)
    (hm : 3 ≤ m) (hr : 0 ≤ r) (hs : StateSized s m) (hj : 0 ≤ j) (hj' : j < m) (h0 : 0 ≤ off) (hl : off + m ≤ lBuff.length)
    (hu : off + m ≤ uBuff.length) (hp : 0 ≤ pos) (hR : Reported s pos) :
    (ucrCandidate Q lBuff uBuff mean std j off pos s).Ensures fun s' => StateSized s' m ∧ Reported s' pos ∧ s'.t = s.t := by
  obtain ⟨s1, s2, s3, s4, s5⟩ := hs
  unfold ucrCandidate
  rw [hQ.hm]
  refine (lbKim_def hm s1 hQ.q hj hj').bind fun lbk _ => ?_
  split
  swap
  · exact ⟨_, rfl, ⟨s1, s2, s3, s4, s5⟩, hR, rfl⟩
  refine (lbKeogh_def hQ.order s1 hQ.uo hQ.lo s3 hj hj').bind ?_
  rintro ⟨lb1, cb1⟩ h1
  dsimp only at h1 ⊢
  split
  swap
  · exact ⟨_, rfl, ⟨s1, s2, h1, s4, s5⟩, hR, rfl⟩
  refine Res.Ensures.bind (forInt_keep (fun tz : List α => (tz.length : Int) = m) s5 fun k tz k0 k1 hk => ?_) fun tz htz => ?_
  · in_range
  refine (lbKeoghData_def hQ.order hQ.qo s4 h0 hl hu).bind ?_
  rintro ⟨lb2, cb2⟩ h2
  dsimp only at h2 ⊢
  split
  swap
  · exact ⟨_, rfl, ⟨s1, s2, h1, h2, htz⟩, hR, rfl⟩
  refine (cumulate_def (by omega) (by split <;> assumption) s2).bind fun cb hcb => ?_
  refine (dtw_def (by omega) (by rw [hQ.hr]; exact hr) htz hQ.q hcb).bind fun dist _ => ?_
  split
  · exact ⟨_, rfl, ⟨s1, hcb, h1, h2, htz⟩, Or.inr ⟨hp, le_rfl⟩, rfl⟩
  · exact ⟨_, rfl, ⟨s1, hcb, h1, h2, htz⟩, hR, rfl⟩

theorem point_def {Q : UcrQuery α} {buffer lBuff uBuff : List α} {it i epoch : Int} {s : UcrState α} {m r : Int} (hQ : QuerySized Q m r)
    (hm : 3 ≤ m) (hr : 0 ≤ r) (hs : StateSized s m) (hi : 0 ≤ i) (hb : i < buffer.length) (hl : i < lBuff.length)
    (hu : i < uBuff.length) (hw : 0 ≤ it * (epoch - m + 1)) (hR : Reported s (it * (epoch - m + 1) + Max.max i (m - 1) - m)) :
    (ucrPoint epoch Q buffer lBuff uBuff it i s).Ensures fun s' => StateSized s' m ∧
      Reported s' (it * (epoch - m + 1) + Max.max (i + 1) (m - 1) - m) := by
  obtain ⟨s1, s2, s3, s4, s5⟩ := hs
  have hmod : 0 ≤ i.tmod m ∧ i.tmod m < m := ⟨Int.tmod_nonneg _ hi, Int.tmod_lt_of_pos _ (by omega)⟩
  have hmod' : 0 ≤ (i + 1).tmod m ∧ (i + 1).tmod m < m := ⟨Int.tmod_nonneg _ (by omega), Int.tmod_lt_of_pos _ (by omega)⟩
  unfold ucrPoint
  rw [hQ.hm]
  refine (vget_def hi (by omega)).bind fun d _ => ?_
  refine (vset_def d hmod.1 (by omega)).bind fun t ht => ?_
  refine (vset_def d (by omega) (by omega)).bind fun t' ht' => ?_
  dsimp only
  have hR2 : ∀ s' : UcrState α, s'.loc = s.loc → s'.bsf = s.bsf →
      Reported s' (it * (epoch - m + 1) + Max.max (i + 1) (m - 1) - m) := by
    intro s' e1 e2
    exact hR.le e1 e2 (by omega)
  split
  · refine (candidate_def (s := { s with t := t', ex := _, ex2 := _ }) (off := i - (m - 1)) (pos := it * (epoch - m + 1) + i - m + 1) hQ hm hr
      ⟨by dsimp only; omega, s2, s3, s4, s5⟩ hmod'.1 hmod'.2 (by omega) (by omega) (by omega) (by omega) ?_).bind ?_
    · have := hR2 { s with t := t', ex := add s.ex d, ex2 := add s.ex2 (mul d d) } rfl rfl
      rwa [show it * (epoch - m + 1) + i - m + 1 = it * (epoch - m + 1) + Max.max (i + 1) (m - 1) - m by omega]
    · rintro s' ⟨⟨a1, a2, a3, a4, a5⟩, a6, a7⟩
      refine (vget_def hmod'.1 (by omega)).bind fun tj _ => ?_
      refine ⟨_, rfl, ⟨a1, a2, a3, a4, a5⟩, ?_⟩
      rwa [show it * (epoch - m + 1) + Max.max (i + 1) (m - 1) - m = it * (epoch - m + 1) + i - m + 1 by omega]
  · exact ⟨_, rfl, ⟨by dsimp only; omega, s2, s3, s4, s5⟩, hR2 _ rfl rfl⟩

/-! ## Chunks -/

theorem fillFirst_def {N m it : Int} {b rest : List α} (hm : 1 ≤ m) (hN : m ≤ N) (hb : (b.length : Int) = N) :
    (fillFirst N m it b rest).Ensures fun s => (s.1.length : Int) = N ∧
      (s.2.length : Int) = if it = 0 then Max.max ((rest.length : Int) - (m - 1)) 0 else rest.length := by
  unfold fillFirst
  split
  · refine Res.Ensures.mono (forInt_ensures (fun k (s : List α × List α) => (s.1.length : Int) = N ∧ (s.2.length : Int) = Max.max ((rest.length : Int) - k) 0)
      (by omega) ⟨hb, by dsimp only; omega⟩ ?_) fun s h => h
    rintro k ⟨b', rest'⟩ k0 k1 ⟨h1, h2⟩
    dsimp only at h1 h2 ⊢
    cases rest' with
    | nil =>
      refine ⟨_, rfl, h1, ?_⟩
      simp only [List.length_nil] at h2 ⊢
      omega
    | cons d rest' =>
      simp only [List.length_cons] at h2 ⊢
      refine (vset_def d k0 (by omega)).bind fun b'' h3 => ⟨_, rfl, ?_⟩
      dsimp only
      omega
  · refine Res.Ensures.bind (forInt_keep (fun b : List α => (b.length : Int) = N) hb fun k b' k0 k1 h => ?_) fun b' h => ⟨_, rfl, h, rfl⟩
    in_range

theorem fillRest_def {N m : Int} {b rest : List α} (hm : 1 ≤ m) (hN : m ≤ N) (hb : (b.length : Int) = N) :
    (fillRest N m b rest).Ensures fun s => (s.1.length : Int) = N ∧ s.2.2 = Min.min N (m - 1 + rest.length) ∧
      (s.2.1.length : Int) = rest.length - (s.2.2 - (m - 1)) := by
  unfold fillRest
  refine Res.Ensures.mono (forBrk_ensures
    (fun ep (s : List α × List α × Int) => (s.1.length : Int) = N ∧ s.2.2 = ep ∧ (s.2.1.length : Int) = rest.length - (ep - (m - 1)))
    (fun s : List α × List α × Int => (s.1.length : Int) = N ∧ s.2.2 = Min.min N (m - 1 + rest.length) ∧
      (s.2.1.length : Int) = rest.length - (s.2.2 - (m - 1)))
    (by omega) ⟨hb, rfl, by dsimp only; omega⟩ ?_) ?_
  · rintro ep ⟨b', rest', e⟩ h0 h1 ⟨a1, a2, a3⟩
    dsimp only at a1 a2 a3 ⊢
    cases rest' with
    | nil =>
      refine ⟨_, rfl, a1, ?_⟩
      simp only [List.length_nil] at a3 ⊢
      omega
    | cons d rest' =>
      simp only [List.length_cons] at a3 ⊢
      refine (vset_def d (by omega) (by omega)).bind fun b'' h3 => ⟨_, rfl, ?_⟩
      dsimp only
      omega
  · rintro s (⟨a1, a2, a3⟩ | h)
    · omega
    · exact h

/-- Before round `x.it`. -/
structure RoundOk (N m : Int) (n : Int) (x : UcrRun α) : Prop where
  it : 0 ≤ x.it
  buffer : (x.buffer.length : Int) = N
  lBuff : (x.lBuff.length : Int) = N
  uBuff : (x.uBuff.length : Int) = N
  sized : StateSized x.s m
  first : x.it = 0 → (x.rest.length : Int) = n
  next : x.it ≠ 0 → x.it * (N - m + 1) + (m - 1) + x.rest.length = n
  reported : Reported x.s (x.it * (N - m + 1) - 1)

theorem dot_def {N m : Int} (hN : m ≤ N) (hdot : N - m + 1 ≤ 1000000) : ¬ (N - m + 1 = 0 ∨ (1000000 : Int).tdiv (N - m + 1) = 0) := by
  rintro (h | h)
  · omega
  · rw [Int.tdiv_eq_ediv_of_nonneg (by norm_num)] at h
    have := (Int.le_ediv_iff_mul_le (a := 1) (b := 1000000) (c := N - m + 1) (by omega)).mpr (by omega)
    omega

/-- After the last round. -/
def Ended (N m n : Int) (y : UcrRun α) : Prop :=
  0 ≤ y.it ∧ y.it * (N - m + 1) + y.ep = Max.max n (m - 1) ∧ 0 ≤ y.ep ∧ Reported y.s (n - m)

/-- One round up to the test for the end: the next state of the loop, and whether to go on. -/
theorem loop_def {N m r : ℕ} {Q : UcrQuery α} {n : Int} (hQ : QuerySized Q m r) (hm : 3 ≤ m) (hr : r < m) (hN : m ≤ N)
    (hdot : N - m + 1 ≤ 1000000) : ∀ (fuel : ℕ) (x : UcrRun α), RoundOk (N : Int) m n x → x.rest.length < fuel →
      (ucrLoop N Q fuel x).Ensures (Ended (N : Int) m n) := by
  intro fuel
  induction fuel with
  | zero => intro x _ h; omega
  | succ fuel ih =>
    intro x h hf
    unfold ucrLoop
    rw [hQ.hm, hQ.hr]
    have hit := h.it
    have hW : 0 ≤ x.it * ((N : Int) - m + 1) := mul_nonneg hit (by omega)
    have hW0 : x.it = 0 → x.it * ((N : Int) - m + 1) = 0 := by intro e; rw [e]; ring
    have hW1 : (x.it + 1) * ((N : Int) - m + 1) = x.it * ((N : Int) - m + 1) + ((N : Int) - m + 1) := by ring
    refine (fillFirst_def (by omega) (by omega) h.buffer).bind ?_
    rintro ⟨b1, rest1⟩ ⟨a1, a2⟩
    dsimp only at a1 a2 ⊢
    refine (fillRest_def (by omega) (by omega) a1).bind ?_
    rintro ⟨b, rest, ep⟩ ⟨c1, c2, c3⟩
    dsimp only at c1 c2 c3 ⊢
    have hrest : x.it * ((N : Int) - m + 1) + (m - 1) + rest1.length = Max.max n (m - 1) := by
      by_cases e : x.it = 0
      · have := h.first e
        rw [if_pos e] at a2
        rw [hW0 e]
        omega
      · have := h.next e
        rw [if_neg e] at a2
        omega
    have hless : rest1.length ≤ x.rest.length := by
      split at a2 <;> omega
    have hrep := h.reported
    split
    · refine ⟨_, rfl, hit, ?_, ?_, ?_⟩
      · dsimp only
        omega
      · dsimp only
        omega
      · refine hrep.le rfl rfl ?_
        by_cases e : x.it = 0
        · rw [hW0 e]
          omega
        · have := h.next e
          omega
    · obtain ⟨ep, rfl⟩ := Int.eq_ofNat_of_zero_le (show 0 ≤ ep by omega)
      have hlb := h.lBuff
      have hub := h.uBuff
      refine (lemire_def (by omega) (by omega) (by omega) (by omega)).bind ?_
      rintro ⟨l, u⟩ ⟨hl, hu⟩
      dsimp only at hl hu ⊢
      rw [if_neg (dot_def (by omega) (by omega))]
      obtain ⟨s1, s2, s3, s4, s5⟩ := h.sized
      refine Res.Ensures.bind (forInt_ensures (fun i (s : UcrState α) => StateSized s m ∧
        Reported s (x.it * ((N : Int) - m + 1) + Max.max i (m - 1) - m)) (by omega) ⟨⟨s1, s2, s3, s4, s5⟩, ?_⟩ ?_) ?_
      · exact hrep.le rfl rfl (by omega)
      · rintro i s i0 i1 ⟨k1, k2⟩
        exact point_def hQ (by omega) (by omega) k1 i0 (by omega) (by omega) (by omega) hW k2
      · rintro s ⟨k1, k2⟩
        split
        · refine ⟨_, rfl, hit, ?_, ?_, ?_⟩
          · dsimp only
            omega
          · dsimp only
            omega
          · exact k2.le rfl rfl (by omega)
        · refine ih _ ⟨?_, c1, ?_, ?_, k1, ?_, ?_, ?_⟩ ?_
          · dsimp only
            omega
          · dsimp only
            omega
          · dsimp only
            omega
          · dsimp only
            omega
          · intro _
            dsimp only
            rw [hW1]
            omega
          · dsimp only
            rw [hW1]
            exact k2.le rfl rfl (by omega)
          · dsimp only
            omega

theorem calculate_def {N m r : ℕ} {junk : α} {order : List Int} {data query : List α} (ho : Indices order m) (hm : 3 ≤ m) (hr : r < m)
    (hN : m ≤ N) (hdot : N - m + 1 ≤ 1000000) :
    (calculateWith N junk order data query m r).Ensures fun y => y.2.2 = Max.max (data.length : Int) (m - 1) ∧
      (y.1 = 0 ∧ y.2.1 = infTrillion ∨ 0 ≤ y.1 ∧ y.1 + m ≤ data.length) := by
  unfold calculateWith
  refine (prepare_def ho hr).bind fun Q hQ => ?_
  dsimp only
  refine (loop_def (n := data.length) hQ hm hr hN hdot _ _ ⟨le_rfl, by simp, by simp, by simp, ⟨by simp, by simp, by simp, by simp, by simp⟩,
    fun _ => rfl, fun h => absurd rfl h, Or.inl ⟨rfl, rfl⟩⟩ (by simp)).bind ?_
  rintro y ⟨_, h1, _, h2⟩
  refine ⟨_, rfl, h1, ?_⟩
  rcases h2 with h2 | ⟨h2, h3⟩
  · exact Or.inl h2
  · exact Or.inr ⟨h2, by dsimp only; omega⟩

end Onex
