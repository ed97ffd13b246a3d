import Verif.Proofs.Leak
import Verif.Model.CentroidHist
import Verif.Proofs.GroupKeep
import Verif.Proofs.AskedAll

/-!
# The history of the centroids
-/

set_option linter.unusedSectionVars false

namespace Onex

open Store Spec

variable {α : Type} [DataT α]

/-- The sizes of all blocks. -/
def sizes (s : Store α) : List Int := s.heap.map fun blk => len blk.cells

theorem pair_get0 {β : Type} (l : List β) (a b : β) : (l ++ [a, b])[l.length]? = some a := by simp

theorem pair_get1 {β : Type} (l : List β) (a b : β) : (l ++ [a, b])[l.length + 1]? = some b := by
  rw [List.getElem?_append_right (by omega)]
  simp

theorem pair_set0 {β : Type} (l : List β) (a b c : β) :
    (l ++ [a, b]).set l.length c = l ++ [c, b] := by
  rw [List.set_append_right _ _ (le_refl _)]
  simp

theorem pair_set1 {β : Type} (l : List β) (a b c : β) :
    (l ++ [a, b]).set (l.length + 1) c = l ++ [a, c] := by
  rw [List.set_append_right _ _ (by omega)]
  simp

/-- One group is made. -/
theorem birth_run {s : Store α} {buf : List α} {k : Nat} (hk : s.objs.length = 2 * k)
    (hbuf : s.Holds 0 buf) {g : Group α} (hg : CentroidIn buf g) :
    ∃ s' o extra, s'.objs = s.objs ++ [some o, none] ∧ s'.Holds 0 buf ∧
      sizes s' = sizes s ++ g.memberLength :: extra ∧ ∀ rest,
        SOp.run (s, [0]) (g.birth 0 k ++ rest) = SOp.run (s', [0]) rest ∧
        (Respects Legal (s', [0]) rest → Respects Legal (s, [0]) (g.birth 0 k ++ rest)) ∧
        overwrittenIn (s, [0]) (g.birth 0 k ++ rest) =
          s.heap.length :: overwrittenIn (s', [0]) rest := by
  obtain ⟨hn, hv⟩ := hg
  set B : Block α := { alive := true, cells := List.replicate g.memberLength.toNat DataT.zero }
  have hB : len B.cells = g.memberLength := by simp [B, len]; omega
  let o1 : Obj α := { data := some s.heap.length, off := 0, owner := true, index := 0, start := 0,
                      stop := g.memberLength, length := g.memberLength, cache := none }
  let s1 : Store α := { heap := s.heap ++ [B], objs := s.objs ++ [some o1] }
  have e1 : SOp.step (s, [0]) (.newOwned g.memberLength) = .ok (s1, [0]) := by
    simp only [SOp.step, newOwned]
    rw [if_neg (by omega)]
    rfl
  have hb1 : s1.Holds 0 buf := holds_alloc (cells := B.cells) hbuf
  -- the temporary
  have second : ∃ (s2 : Store α) (o2 : Obj α) (extra : List (Block α)) (op : SOp α),
      (g.birth 0 k = [.newOwned g.memberLength, op, .moveAssign (2 * k) (2 * k + 1),
        .destroy (2 * k + 1)]) ∧ overwritten (s1, [0]) op = [] ∧
      SOp.step (s1, [0]) op = .ok (s2, [0]) ∧ Legal (s1, [0]) op ∧
      s2.heap = s.heap ++ B :: extra ∧ s2.objs = s.objs ++ [some o1, some o2] ∧
      s2.Holds 0 buf := by
    unfold Group.birth
    rcases hsrc : g.centroid.src with v | vals
    · obtain ⟨h1, h2, h3⟩ := hv v hsrc
      refine ⟨(s1.newView 0 v.base v.index v.start v.stop).1,
        { data := some 0, off := v.base, owner := false, index := v.index, start := v.start,
          stop := v.stop, length := v.stop - v.start, cache := none }, [],
        .newView 0 v.base v.index v.start v.stop, rfl, rfl, rfl,
        ⟨by simp, h1, h2, buf, hb1, h3⟩, by simp [newView, s1], by simp [newView, s1], hb1⟩
    · refine ⟨{ heap := s1.heap ++ [B], objs := s1.objs ++ [some { o1 with data := some s1.heap.length }] },
        { o1 with data := some s1.heap.length }, [B], _, rfl, rfl, ?_, trivial, by simp [s1],
        by simp [s1], holds_alloc (cells := B.cells) hb1⟩
      simp only [SOp.step, newOwned]
      rw [if_neg (by omega)]
      rfl
  obtain ⟨s2, o2, extra, op, hop, hov, e2, hl2, hheap2, hobjs2, hb2⟩ := second
  let s3 : Store α := { heap := s2.heap, objs := s.objs ++ [some { o2 with cache := o1.cache },
    some { o2 with data := none }] }
  have hl0 : s2.Live (2 * k) o1 := by
    unfold Live
    rw [hobjs2, ← hk, pair_get0]
  have hl1 : s2.Live (2 * k + 1) o2 := by
    unfold Live
    rw [hobjs2, ← hk, pair_get1]
  have e3 : SOp.step (s2, [0]) (.moveAssign (2 * k) (2 * k + 1)) = .ok (s3, [0]) := by
    have hs : s2.setObj (2 * k) (some { o2 with cache := o1.cache }) =
        { heap := s2.heap, objs := s.objs ++ [some { o2 with cache := o1.cache }, some o2] } := by
      unfold setObj
      rw [hobjs2, ← hk, pair_set0]
    have hl1' : ({ heap := s2.heap, objs := s.objs ++ [some { o2 with cache := o1.cache }, some o2] } :
        Store α).Live (2 * k + 1) o2 := by
      unfold Live
      simp only
      rw [← hk, pair_get1]
    simp only [SOp.step, moveAssign, obj_eq_ok.mpr hl0, obj_eq_ok.mpr hl1, Res.bind_ok, hs,
      obj_eq_ok.mpr hl1', Res.pure_eq]
    unfold setObj
    simp only
    rw [← hk, pair_set1]
  let s4 : Store α := { heap := s2.heap, objs := s.objs ++ [some { o2 with cache := o1.cache }, none] }
  have hl3 : s3.Live (2 * k + 1) { o2 with data := none } := by
    unfold Live
    simp only [s3]
    rw [← hk, pair_get1]
  have e4 : SOp.step (s3, [0]) (.destroy (2 * k + 1)) = .ok (s4, [0]) := by
    have : s3.destroy (2 * k + 1) = .ok s4 := by
      simp only [destroy, obj_eq_ok.mpr hl3, Res.bind_ok, free, Res.pure_eq, ite_self, setObj,
        s3, s4, Res.ok.injEq, Store.mk.injEq, true_and]
      rw [← hk, pair_set1]
    simp only [SOp.step, this, Res.bind_ok, Res.pure_eq]
  have ov : overwritten (s2, [0]) (.moveAssign (2 * k) (2 * k + 1)) = [s.heap.length] := by
    unfold Live at hl0
    simp [overwritten, ownedBlock, hl0, o1]
  refine ⟨s4, _, extra.map fun blk => len blk.cells, rfl, hb2, ?_, fun rest => ⟨?_, ?_, ?_⟩⟩
  · simp [sizes, s4, hheap2, hB]
  · rw [hop]
    simp only [List.cons_append, List.nil_append, SOp.run, e1, e2, e3, e4]
  · intro hr
    rw [hop]
    simp only [List.cons_append, List.nil_append, Respects, e1, e2, e3, e4]
    exact ⟨trivial, hl2, ⟨o1, o2, hl0, hl1⟩, ⟨_, hl3⟩, hr⟩
  · rw [hop]
    simp only [List.cons_append, List.nil_append, overwrittenIn, e1, e2, e3, e4, ov, hov]
    simp [overwritten]

/-- All groups are made. -/
theorem births_run {buf : List α} : ∀ (gs : List (Group α)) (s : Store α) (k : Nat),
    s.objs.length = 2 * k → s.Holds 0 buf → (∀ g ∈ gs, CentroidIn buf g) →
    ∃ (s' : Store α) (objs : List (Option (Obj α))) (extra : List Int) (lost : List Nat),
      s'.objs = s.objs ++ objs ∧ objs.length = 2 * gs.length ∧
      (∀ j, j < gs.length → (∃ o, objs[2 * j]? = some (some o)) ∧ objs[2 * j + 1]? = some none) ∧
      sizes s' = sizes s ++ extra ∧
      lost.map (fun b => ((sizes s')[b]?).getD 0) = gs.map (·.memberLength) ∧
      ∀ rest,
        SOp.run (s, [0]) (births 0 k gs ++ rest) = SOp.run (s', [0]) rest ∧
        (Respects Legal (s', [0]) rest → Respects Legal (s, [0]) (births 0 k gs ++ rest)) ∧
        overwrittenIn (s, [0]) (births 0 k gs ++ rest) = lost ++ overwrittenIn (s', [0]) rest
  | [], s, k, _, _, _ => by
    refine ⟨s, [], [], [], by simp, rfl, by simp, by simp, rfl, fun rest => ?_⟩
    simp [births]
  | g :: gs, s, k, hk, hbuf, hg => by
    obtain ⟨s1, o, extra1, a1, a2, a3, a4⟩ := birth_run hk hbuf (hg g List.mem_cons_self)
    obtain ⟨s2, objs, extra2, lost, b1, b2, b3, b4, b5, b6⟩ := births_run gs s1 (k + 1)
      (by rw [a1]; simp; omega) a2 (fun g' h' => hg g' (List.mem_cons_of_mem _ h'))
    refine ⟨s2, some o :: none :: objs, g.memberLength :: extra1 ++ extra2, s.heap.length :: lost,
      by simp [b1, a1], by simp [b2]; omega, ?_, by simp [b4, a3], ?_, fun rest => ?_⟩
    · intro j hj
      cases j with
      | zero => exact ⟨⟨o, rfl⟩, rfl⟩
      | succ j =>
        obtain ⟨⟨o', q1⟩, q2⟩ := b3 j (by simpa using hj)
        exact ⟨⟨o', q1⟩, q2⟩
    · rw [List.map_cons, List.map_cons, b5]
      congr 1
      have hlen : s.heap.length = (sizes s).length := by simp [sizes]
      rw [b4, a3, hlen]
      simp
    · obtain ⟨c1, c2, c3⟩ := a4 (births 0 (k + 1) gs ++ rest)
      obtain ⟨d1, d2, d3⟩ := b6 rest
      unfold births
      rw [List.append_assoc]
      exact ⟨c1.trans d1, fun h => c2 (d2 h), by rw [c3, d3]; rfl⟩

theorem destroy_sizes {s s' : Store α} {i : Nat} (h : s.destroy i = .ok s') : sizes s' = sizes s := by
  unfold destroy at h
  obtain ⟨o, _, h⟩ := Res.bind_eq_ok.mp h
  have key : ∀ s1, (if o.owner = true then s.free o.data else pure s) = .ok s1 →
      sizes s1 = sizes s := by
    intro s1 h1
    split at h1
    · unfold free at h1
      rcases hd : o.data with _ | b
      · rw [hd] at h1; cases h1; rfl
      · rw [hd] at h1
        simp only at h1
        rcases hb : s.heap[b]? with _ | blk
        · rw [hb] at h1; cases h1
        · rw [hb] at h1
          simp only at h1
          split at h1
          · cases h1
            obtain ⟨w1, w2⟩ := List.getElem?_eq_some_iff.mp hb
            unfold sizes
            simp only [List.map_set]
            rw [← w2]
            apply List.ext_getElem?
            intro n
            rw [List.getElem?_set]
            split
            · rename_i hn
              subst hn
              simp [w1]
            · rfl
          · cases h1
    · cases h1; rfl
  by_cases ho : o.owner = true
  · simp only [ho, if_true] at h key
    obtain ⟨s1, h1, h⟩ := Res.bind_eq_ok.mp h
    cases h
    exact key s1 h1
  · simp only [ho, Res.pure_eq, Res.bind_ok] at h key
    cases h
    rfl

/-- Objects are destroyed. -/
theorem destroys_run {ext : List Nat} : ∀ (is : List Nat) (s : Store α), s.Inv ext → is.Nodup →
    (∀ i ∈ is, ∃ o, s.Live i o) →
    ∃ s', SOp.run (s, ext) (is.map .destroy) = .ok (s', ext) ∧
      Respects Legal (s, ext) (is.map .destroy) ∧ overwrittenIn (s, ext) (is.map .destroy) = [] ∧
      sizes s' = sizes s ∧ ∀ i o, s'.Live i o → s.Live i o ∧ i ∉ is
  | [], s, _, _, _ => ⟨s, rfl, trivial, rfl, rfl, fun i o h => ⟨h, by simp⟩⟩
  | i :: is, s, h, hnd, hl => by
    obtain ⟨o, ho⟩ := hl i List.mem_cons_self
    obtain ⟨s1, g1, g2, g3, _⟩ := inv_destroy h ho
    have e : SOp.step (s, ext) (.destroy i) = .ok (s1, ext) := by
      simp only [SOp.step, g1, Res.bind_ok, Res.pure_eq]
    have hlive : ∀ k ok, s1.Live k ok ↔ k ≠ i ∧ s.Live k ok := by
      intro k ok
      unfold Live
      rw [g3, List.getElem?_set]
      by_cases hk : i = k
      · subst hk
        simp
      · simp [hk]
        exact fun _ => fun h => hk h.symm
    rw [List.nodup_cons] at hnd
    obtain ⟨s2, f1, f2, f3, f4, f5⟩ := destroys_run is s1 g2 hnd.2 (by
      intro k hk
      obtain ⟨ok, hok⟩ := hl k (List.mem_cons_of_mem _ hk)
      exact ⟨ok, (hlive k ok).mpr ⟨fun he => hnd.1 (he ▸ hk), hok⟩⟩)
    refine ⟨s2, ?_, ?_, ?_, f4.trans (destroy_sizes g1), ?_⟩
    · simp only [List.map_cons, SOp.run, e]
      exact f1
    · simp only [List.map_cons, Respects, e]
      exact ⟨⟨o, ho⟩, f2⟩
    · simp only [List.map_cons, overwrittenIn, e, f3]
      rfl
    · intro k ok hk
      obtain ⟨q1, q2⟩ := f5 k ok hk
      obtain ⟨q3, q4⟩ := (hlive k ok).mp q1
      exact ⟨q4, by simp [q3, q2]⟩

/-- The whole life of the centroids. -/
theorem centroidLife_run {buf : List α} {gs : List (Group α)} (hg : ∀ g ∈ gs, CentroidIn buf g) :
    ∃ (st : SState α) (lost : List Nat), SOp.run SState.init (centroidLife buf gs) = .ok st ∧
      Respects Legal SState.init (centroidLife buf gs) ∧ (∀ i o, ¬ st.1.Live i o) ∧
      lost.Nodup ∧ (∀ b, Leaked st b ↔ b ∈ lost) ∧
      lost.map (blockSize st.1) = gs.map (·.memberLength) := by
  let s0 : Store α := { heap := [⟨true, buf⟩], objs := [] }
  have e0 : SOp.step (SState.init : SState α) (.newExt buf) = .ok (s0, [0]) := rfl
  obtain ⟨s1, objs, extra, lost, b1, b2, b3, b4, b5, b6⟩ := births_run gs s0 0 rfl rfl hg
  have hobjs : s1.objs = objs := by rw [b1]; rfl
  obtain ⟨c1, c2, _⟩ := b6 []
  rw [List.append_nil] at c1 c2
  have hinv0 : s0.Inv [0] := (legal_step inv_init (op := .newExt buf) trivial).1 _ e0
  have hinv : s1.Inv [0] :=
    legal_run (fun _ _ h => h) (births 0 0 gs) (s0, [0]) hinv0 (c2 trivial) (s1, [0]) c1
  obtain ⟨s2, f1, f2, f3, f4, f5⟩ := destroys_run ((List.range gs.length).map (2 * ·)) s1 hinv
    (List.Nodup.map (fun a b h => by simpa using h) List.nodup_range) (by
      intro i hi
      obtain ⟨j, hj, rfl⟩ := List.mem_map.mp hi
      obtain ⟨⟨o, ho⟩, _⟩ := b3 j (List.mem_range.mp hj)
      exact ⟨o, by unfold Live; rw [hobjs]; exact ho⟩)
  have hd : (deaths gs.length : List (SOp α)) =
      ((List.range gs.length).map (2 * ·)).map .destroy := by
    simp [deaths]
  obtain ⟨d1, d2, d3⟩ := b6 (deaths gs.length)
  have hrun : SOp.run SState.init (centroidLife buf gs) = .ok (s2, [0]) := by
    unfold centroidLife
    simp only [SOp.run, e0, d1]
    rw [hd, f1]
  have hresp : Respects Legal SState.init (centroidLife buf gs) := by
    unfold centroidLife
    simp only [Respects, e0]
    exact ⟨trivial, d2 (by rw [hd]; exact f2)⟩
  have hov : overwrittenIn SState.init (centroidLife buf gs) = lost := by
    unfold centroidLife
    simp only [overwrittenIn, e0, d3]
    rw [hd, f3]
    simp [overwritten]
  have hacc := accounted_run _ _ _ [] inv_init hresp accounted_init hrun
  rw [List.nil_append, hov] at hacc
  refine ⟨_, lost, hrun, hresp, ?_, hacc.1, hacc.2, ?_⟩
  · intro i o hi
    obtain ⟨q1, q2⟩ := f5 i o hi
    unfold Live at q1
    rw [hobjs] at q1
    have hlt := (List.getElem?_eq_some_iff.mp q1).1
    rw [b2] at hlt
    rcases Nat.even_or_odd' i with ⟨j, rfl | rfl⟩
    · exact q2 (List.mem_map.mpr ⟨j, List.mem_range.mpr (by omega), rfl⟩)
    · rw [(b3 j (by omega)).2] at q1
      cases q1
  · rw [← b5]
    apply List.map_congr_left
    intro b _
    show ((sizes s2)[b]?).getD 0 = _
    rw [f4]

/-! ## Groups that were made or loaded -/

theorem loadGroup_length {io : NumIO α} {i l c : Int} {mm mm' : List Membership} {s s' : Stream}
    {g : Group α} (h : (Group.new i l c : Group α).loadGroup io mm s = .ok (g, mm', s')) :
    g.memberLength = l := by
  unfold Group.loadGroup at h
  rcases hc : readCentroid io (Group.new i l c : Group α).memberLength.toNat s with ⟨vals, s1⟩
  rw [hc] at h
  simp only at h
  split at h
  · cases h
  · rename_i cnt _
    obtain ⟨st, h1, h⟩ := Res.bind_eq_ok.mp h
    cases h
    rcases Int.le_total cnt 0 with hn | hn
    · rw [forInt_of_le hn] at h1
      cases h1
      rfl
    · refine forInt_okInv (fun _ (st : LoadState α) => st.group.memberLength = l) hn rfl ?_ h1
      intro j t t' _ _ hi e
      split at e
      · obtain ⟨⟨g', m⟩, e1, e⟩ := Res.bind_eq_ok.mp e
        cases e
        unfold Group.addMember at e1
        obtain ⟨m', _, e1⟩ := Res.bind_eq_ok.mp e1
        cases e1
        exact hi
      · cases e

theorem localLoad_length {io : NumIO α} {ls ls' : LocalSpace α} {s s' : Stream} {n : Int}
    (h : ls.loadGroups io s = .ok (n, ls', s')) : ∀ g ∈ ls'.groups, g.memberLength = ls.length := by
  unfold LocalSpace.loadGroups at h
  simp only at h
  split at h
  · cases h
  · obtain ⟨⟨l1, s1⟩, h1, h⟩ := Res.bind_eq_ok.mp h
    cases h
    have h0 : ({ ls with groups := [] } : LocalSpace α).length = ls.length ∧
        ∀ g ∈ ({ ls with groups := [] } : LocalSpace α).groups, g.memberLength = ls.length :=
      ⟨rfl, fun g hg => by cases hg⟩
    rcases Int.le_total (toUnsigned n) 0 with hn | hn
    · rw [forInt_of_le hn] at h1
      cases h1
      exact h0.2
    · refine (forInt_okInv (s' := (l1, s1)) (fun _ (st : LocalSpace α × Stream) =>
        st.1.length = ls.length ∧ ∀ g ∈ st.1.groups, g.memberLength = ls.length) hn h0 ?_ h1).2
      intro j t t' _ _ hi e
      obtain ⟨⟨g, mm, s2⟩, e1, e⟩ := Res.bind_eq_ok.mp e
      cases e
      refine ⟨hi.1, ?_⟩
      intro y hy
      rcases List.mem_append.mp hy with hy | hy
      · exact hi.2 y hy
      · rw [List.mem_singleton] at hy
        subst hy
        rw [loadGroup_length e1, hi.1]

theorem globalLoad_length {io : NumIO α} {ds : Dataset α} {gs gs' : GlobalSpace α} {s : Stream}
    {n : Int} (h : gs.loadGroups io ds s = (.ok n, gs')) :
    ∀ ls, some ls ∈ gs'.locals → ∀ g ∈ ls.groups, 0 ≤ g.memberLength := by
  unfold GlobalSpace.loadGroups at h
  simp only at h
  split at h
  · simp at h
  · simp at h
  · split at h
    · simp at h
    · split at h
      · rename_i lf lt _ _
        split at h
        · rename_i n' locals s' hrun
          simp only [Prod.mk.injEq] at h
          obtain ⟨_, rfl⟩ := h
          simp only
          have h0 : ∀ ls, some ls ∈ (List.replicate (ds.itemLength + 1).toNat none :
              List (Option (LocalSpace α))) → ∀ g ∈ ls.groups, 0 ≤ g.memberLength := by
            intro ls hls
            exact absurd (List.eq_of_mem_replicate hls) (by simp)
          rcases Int.le_total (toUnsigned lt) (toUnsigned lf) with hn | hn
          · rw [forInt_of_le hn] at hrun
            cases hrun
            exact h0
          · refine forInt_okInv (s' := (n', locals, s'))
              (fun _ (st : Int × List (Option (LocalSpace α)) × Stream) =>
                ∀ ls, some ls ∈ st.2.1 → ∀ g ∈ ls.groups, 0 ≤ g.memberLength) hn h0 ?_ hrun
            intro j t t' hj _ hi e
            obtain ⟨l0, e0, e⟩ := Res.bind_eq_ok.mp e
            obtain ⟨⟨m, l1, s2⟩, e1, e⟩ := Res.bind_eq_ok.mp e
            obtain ⟨l2, e2, e⟩ := Res.bind_eq_ok.mp e
            cases e
            intro ls hls
            rcases mem_of_vset e2 hls with hls | hls
            · exact hi ls hls
            · cases hls
              intro g hg
              rw [localLoad_length e1 g hg]
              have hl0 : l0.length = j := by
                unfold LocalSpace.new at e0
                simp only at e0
                split at e0
                · cases e0
                · cases e0; rfl
              have : 0 ≤ toUnsigned lf := Int.emod_nonneg _ (by norm_num)
              omega
        · simp at h
        · simp at h
      · simp at h

theorem mem_allGroups {gs : GlobalSpace α} {g : Group α} :
    g ∈ gs.allGroups ↔ ∃ ls, some ls ∈ gs.locals ∧ g ∈ ls.groups := by
  unfold GlobalSpace.allGroups
  rw [List.mem_flatMap]
  constructor
  · rintro ⟨_ | ls, h1, h2⟩
    · cases h2
    · exact ⟨ls, h1, h2⟩
  · rintro ⟨ls, h1, h2⟩
    exact ⟨some ls, h1, h2⟩

theorem allGroups_length (gs : GlobalSpace α) :
    (gs.allGroups.length : Int) = (gs.locals.map entryGroups).sum := by
  unfold GlobalSpace.allGroups
  induction gs.locals with
  | nil => rfl
  | cons x xs ih =>
    rw [List.flatMap_cons, List.length_append, List.map_cons, List.sum_cons, ← ih]
    push_cast
    cases x <;> rfl

theorem loaded_centroidIn (buf : List α) {io : NumIO α} {ds : Dataset α} {gs gs' : GlobalSpace α}
    {s : Stream} {n : Int} (h : gs.loadGroups io ds s = (.ok n, gs')) :
    ∀ g ∈ gs'.allGroups, CentroidIn buf g := by
  intro g hg
  obtain ⟨ls, h1, h2⟩ := mem_allGroups.mp hg
  refine ⟨globalLoad_length h ls h1 g h2, fun v hv => ?_⟩
  obtain ⟨_, vals, h3, _⟩ := globalLoad_lfit h ls h1 g h2
  rw [h3] at hv
  cases hv

theorem grouped_centroidIn {ds : Dataset α} {L : Nat} {R : List (List α)} (hR : ds.Holds L R)
    {buf : List α} (hbuf : ds.data = some buf) {d : Dist α} {th : α}
    {gs : GlobalSpace α} {n : Int} (h : GroupedBy ds d th gs.locals n) :
    ∀ g ∈ gs.allGroups, CentroidIn buf g := by
  intro g hg
  obtain ⟨ls, h1, h2⟩ := mem_allGroups.mp hg
  obtain ⟨l, hl, hll⟩ := List.getElem_of_mem h1
  have he : vget gs.locals (l : Int) = .ok (some ls) := by rw [vget_nat hl, hll]
  obtain ⟨a1, a2, a3⟩ := h.entry he
  obtain ⟨M, b1, b2, _⟩ := groupsAt_partition (by rw [hR.itemCount]; omega) (by omega) a3
  obtain ⟨k, hk, rfl⟩ := List.getElem_of_mem h2
  have hkM : k < M.length := by rw [← b1.card]; exact hk
  obtain ⟨r, e1, e2⟩ := b2 k hk hkM
  obtain ⟨⟨c1, c2⟩, c3, c4⟩ := (b1.inv k hk hkM).subs r (List.mem_of_getLast? e1)
  refine ⟨by rw [(b1.inv k hk hkM).memberLength]; omega, fun v hv => ?_⟩
  rw [e2] at hv
  cases hv
  simp only [subView]
  obtain ⟨slack, hs⟩ := hR.data
  rw [hbuf] at hs
  have hlen : ds.itemCount * ds.itemLength ≤ len buf := by
    have hfl : R.flatten.length = R.length * L := flatten_length hR.rows
    cases hs
    rw [hR.itemCount, hR.itemLength]
    simp only [len, List.length_append, hfl]
    push_cast
    omega
  have hL : 0 ≤ ds.itemLength := by rw [hR.itemLength]; omega
  refine ⟨?_, by omega, ?_⟩
  · have := mul_nonneg c1 hL
    omega
  · have : (r.1 + 1) * ds.itemLength ≤ ds.itemCount * ds.itemLength :=
      mul_le_mul_of_nonneg_right (by omega) hL
    have e : (r.1 + 1) * ds.itemLength = r.1 * ds.itemLength + ds.itemLength := by ring
    omega

end Onex
