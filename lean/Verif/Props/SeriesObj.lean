import Verif.Proofs.SeriesObj
import Verif.Proofs.Envelope

/-!
# C13, C16, C47, C48: series objects

Client programs are histories of operations on series objects (`SOp`, `SOp.run`).
-/

namespace Onex

open Store Spec

variable {α : Type} [DataT α]

/-- Object `i` exists, is `o` and has not been moved from. -/
def Usable (s : Store α) (i : Nat) (o : Obj α) : Prop := s.Live i o ∧ o.data ≠ none

/-- What a client must respect: use existing objects only, do not read, write or copy an object that
was moved from, make views inside dataset buffers, and do not copy-assign an owning series to
itself. -/
def Legal (st : SState α) : SOp α → Prop
  | .newOwned _ => True
  | .newExt _ => True
  | .newView b off _ start stop => b ∈ st.2 ∧ 0 ≤ off + start ∧ start ≤ stop ∧
      ∃ c, st.1.Holds b c ∧ off + stop ≤ len c
  | .copy j => ∃ o, Usable st.1 j o
  | .copyAssign i j => ∃ t o, st.1.Live i t ∧ Usable st.1 j o ∧ (i ≠ j ∨ t.owner = false)
  | .moveAssign i j => ∃ t o, st.1.Live i t ∧ st.1.Live j o
  | .destroy i => ∃ t, st.1.Live i t
  | .put i _ _ => ∃ o, Usable st.1 i o
  | .addAssign i j => ∃ o p, Usable st.1 i o ∧ Usable st.1 j p
  | .keogh _ i _ => ∃ o, Usable st.1 i o

/-- Every operation of the history satisfies `P` in the state in which it is performed. -/
def Respects (P : SState α → SOp α → Prop) : SState α → List (SOp α) → Prop
  | _, [] => True
  | st, op :: ops => P st op ∧
    match op.step st with
    | .ok st' => Respects P st' ops
    | .throw _ => Respects P st ops
    | .ub _ => True

/-- The operation asks for an envelope. -/
def SOp.isKeogh : SOp α → Bool
  | .keogh _ _ _ => true
  | _ => false

/-! ## C47 -/

theorem keogh_state {junk : α} {s s' : Store α} {i : Nat} {band : Int} {o : Obj α}
    {lu : List α × List α} (hi : s.Live i o) (h : Store.keogh junk s i band = .ok (lu, s')) :
    ∃ cache, s' = s.setObj i (some { o with cache := cache }) := by
  have hsame : s = s.setObj i (some o) := by
    unfold setObj
    have hl := (List.getElem?_eq_some_iff.mp hi)
    obtain ⟨h1, h2⟩ := hl
    rw [← h2, List.set_getElem_self]
  unfold Store.keogh at h
  rw [obj_eq_ok.mpr hi] at h
  simp only [Res.bind_ok] at h
  have fresh : ∀ r, s.keoghFresh junk i o band = .ok r →
      ∃ cache, r.2 = s.setObj i (some { o with cache := cache }) := by
    intro r hr
    unfold keoghFresh at hr
    obtain ⟨vals, _, hr⟩ := Res.bind_eq_ok.mp hr
    obtain ⟨lu', _, hr⟩ := Res.bind_eq_ok.mp hr
    cases hr
    exact ⟨_, rfl⟩
  rcases hc : o.cache with _ | c
  · rw [hc] at h
    exact fresh _ h
  · rw [hc] at h
    simp only at h
    split at h
    · cases h
      exact ⟨o.cache, hsame⟩
    · exact fresh _ h

theorem legal_step {st : SState α} (h : st.1.Inv st.2) {op : SOp α} (hl : Legal st op) :
    (∀ st', op.step st = .ok st' → st'.1.Inv st'.2) ∧ (op.isKeogh = false → ∀ w, op.step st ≠ .ub w) := by
  rcases st with ⟨s, ext⟩
  cases op with
  | newOwned n =>
    simp only [SOp.step]
    by_cases hn : 0 ≤ n
    · obtain ⟨s', h1, h2, _⟩ := inv_newOwned h hn
      rw [h1]
      simp only [Res.bind_ok, Res.pure_eq]
      exact ⟨fun st' e => by cases e; exact h2, fun _ w e => by cases e⟩
    · unfold newOwned
      rw [if_pos (by omega)]
      exact ⟨fun st' e => (by cases e), fun _ w e => (by cases e)⟩
  | newExt cells =>
    simp only [SOp.step]
    exact ⟨fun st' e => by cases e; exact inv_newExt h cells, fun _ w e => by cases e⟩
  | newView b off index start stop =>
    obtain ⟨h1, h2, h3, c, h4, h5⟩ := hl
    simp only [SOp.step]
    exact ⟨fun st' e => by cases e; exact inv_newView h index h1 h4 h2 h3 h5, fun _ w e => by cases e⟩
  | copy j =>
    obtain ⟨o, h1, h2⟩ := hl
    obtain ⟨s', o', g1, g2, _⟩ := inv_copy h h1 h2
    simp only [SOp.step, g1, Res.bind_ok, Res.pure_eq]
    exact ⟨fun st' e => by cases e; exact g2, fun _ w e => by cases e⟩
  | copyAssign i j =>
    obtain ⟨t, o, h1, ⟨h2, h3⟩, h4⟩ := hl
    obtain ⟨s', o', g1, g2, _⟩ := inv_copyAssign h h1 h2 h3 h4
    simp only [SOp.step, g1, Res.bind_ok, Res.pure_eq]
    exact ⟨fun st' e => by cases e; exact g2, fun _ w e => by cases e⟩
  | moveAssign i j =>
    obtain ⟨t, o, h1, h2⟩ := hl
    obtain ⟨s', g1, g2, _⟩ := inv_moveAssign h h1 h2
    simp only [SOp.step, g1, Res.bind_ok, Res.pure_eq]
    exact ⟨fun st' e => by cases e; exact g2, fun _ w e => by cases e⟩
  | destroy i =>
    obtain ⟨t, h1⟩ := hl
    obtain ⟨s', g1, g2, _⟩ := inv_destroy h h1
    simp only [SOp.step, g1, Res.bind_ok, Res.pure_eq]
    exact ⟨fun st' e => by cases e; exact g2, fun _ w e => by cases e⟩
  | put i idx v =>
    obtain ⟨o, h1, h2⟩ := hl
    obtain ⟨b, hb⟩ := Option.ne_none_iff_exists'.mp h2
    simp only [SOp.step]
    by_cases hidx : 0 ≤ idx ∧ idx < o.length
    · obtain ⟨s', c, _, g1, g2, _⟩ := inv_put h h1 hb v hidx.1 hidx.2
      simp only [g1, Res.bind_ok, Res.pure_eq]
      exact ⟨fun st' e => by cases e; exact g2, fun _ w e => by cases e⟩
    · unfold put
      rw [obj_eq_ok.mpr h1]
      simp only [Res.bind_ok]
      rw [if_pos (by omega)]
      exact ⟨fun st' e => (by cases e), fun _ w e => (by cases e)⟩
  | addAssign i j =>
    obtain ⟨o, p, ⟨h1, h2⟩, h3, h4⟩ := hl
    obtain ⟨b, hb⟩ := Option.ne_none_iff_exists'.mp h2
    obtain ⟨b', hb'⟩ := Option.ne_none_iff_exists'.mp h4
    obtain ⟨_, _, ca, hca, _⟩ := (h.objs i o h1).window hb
    obtain ⟨_, _, cp, hcp, _⟩ := (h.objs j p h3).window hb'
    simp only [SOp.step]
    by_cases hlen : p.length = o.length
    · obtain ⟨s', c', g1, _, g2, _⟩ := addAssign_spec h h1 h3 hb hb' hca hcp hlen
      simp only [g1, Res.bind_ok, Res.pure_eq]
      exact ⟨fun st' e => by cases e; exact g2, fun _ w e => by cases e⟩
    · unfold addAssign
      rw [obj_eq_ok.mpr h1, obj_eq_ok.mpr h3]
      simp only [Res.bind_ok]
      rw [if_pos hlen]
      exact ⟨fun st' e => (by cases e), fun _ w e => (by cases e)⟩
  | keogh junk i band =>
    obtain ⟨o, h1, h2⟩ := hl
    refine ⟨?_, fun hk => by simp [SOp.isKeogh] at hk⟩
    intro st' e
    simp only [SOp.step] at e
    obtain ⟨⟨lu, s'⟩, e1, e2⟩ := Res.bind_eq_ok.mp e
    cases e2
    obtain ⟨cache, rfl⟩ := keogh_state h1 e1
    refine inv_setObj h ?_ ?_
    · rintro o2 ho2
      cases ho2
      exact (h.objs i o h1).recache cache
    · rintro o2 ho2 hown b hb k ok hk hlive hok hbk
      cases ho2
      exact hk (h.uniq k i ok o b hlive h1 hok hown hbk hb)

theorem legal_run {P : SState α → SOp α → Prop} (hP : ∀ st op, P st op → Legal st op) :
    ∀ (ops : List (SOp α)) (st : SState α), st.1.Inv st.2 → Respects P st ops →
      ∀ st', SOp.run st ops = .ok st' → st'.1.Inv st'.2
  | [], st, h, _, st', e => by
    simp only [SOp.run, Res.ok.injEq] at e
    exact e ▸ h
  | op :: ops, st, h, hr, st', e => by
    obtain ⟨h1, h2⟩ := hr
    obtain ⟨g1, _⟩ := legal_step h (hP st op h1)
    unfold SOp.run at e
    cases hs : op.step st with
    | ok st1 =>
      rw [hs] at h2 e
      exact legal_run hP ops st1 (g1 st1 hs) h2 st' e
    | throw m =>
      rw [hs] at h2 e
      exact legal_run hP ops st h h2 st' e
    | ub w => rw [hs] at e; cases e

/-- C47, memory safety, for clients that neither use moved-from objects nor copy-assign an owning
series to itself: no history of construction, copying, assignment, destruction, element writes and
additions reads or writes memory that is not allocated, uses memory after its release or releases
it twice. -/
theorem C47_memory_safe_partial (ops : List (SOp α)) (hr : Respects Legal SState.init ops)
    (hk : ∀ op ∈ ops, op.isKeogh = false) : ∃ st, SOp.run SState.init ops = .ok st := by
  have gen : ∀ (ops : List (SOp α)) (st : SState α), st.1.Inv st.2 → Respects Legal st ops →
      (∀ op ∈ ops, op.isKeogh = false) → ∃ st', SOp.run st ops = .ok st' := by
    intro ops
    induction ops with
    | nil => intro st _ _ _; exact ⟨st, rfl⟩
    | cons op ops ih =>
      intro st h hr hk
      obtain ⟨h1, h2⟩ := hr
      obtain ⟨g1, g2⟩ := legal_step h h1
      unfold SOp.run
      cases hs : op.step st with
      | ok st1 =>
        rw [hs] at h2
        exact ih st1 (g1 st1 hs) h2 (fun o ho => hk o (List.mem_cons_of_mem _ ho))
      | throw m =>
        rw [hs] at h2
        exact ih st h h2 (fun o ho => hk o (List.mem_cons_of_mem _ ho))
      | ub w => exact absurd hs (g2 (hk op List.mem_cons_self) w)
  exact gen ops _ inv_init hr hk

/-- A legal history with an owner, its copy, an assignment, a move and destructions. -/
example : Respects Legal (SState.init : SState α)
    [.newOwned 2, .copy 0, .newOwned 3, .copyAssign 2 0, .moveAssign 1 2, .destroy 0, .destroy 2,
      .destroy 1] := by
  simp [Respects, Legal, SState.init, SOp.step, newOwned, alloc, copy, obj, copyInto, readRange,
    block, copyAssign, moveAssign, destroy, free, setObj, Usable, Live]

/-- C47 is false as it stands: assigning an owning series to itself reads released memory. -/
theorem C47_self_assignment_counterexample :
    SOp.run (SState.init : SState α) [.newOwned 2, .copyAssign 0 0] = .ub "use after free" := by
  simp [SOp.run, SOp.step, SState.init, newOwned, alloc, copyAssign, obj, free, copyInto, readRange,
    block]

/-- C47 is false as it stands: copying a series that was moved from reads through a null pointer. -/
theorem C47_moved_from_counterexample :
    SOp.run (SState.init : SState α) [.newOwned 2, .newOwned 2, .moveAssign 0 1, .copy 1] =
      .ub "null dereference" := by
  simp [SOp.run, SOp.step, SState.init, newOwned, alloc, moveAssign, copy, obj, setObj, copyInto,
    readRange, block]

/-- An object keeps its values if its block does. -/
theorem values_keep {s s' : Store α} {ext : List Nat} (h : s.Inv ext) {k : Nat} {o o' : Obj α}
    (hk : s.Live k o) (hk' : s'.Live k o') (e : o'.data = o.data ∧ o'.off = o.off ∧
      o'.start = o.start ∧ o'.length = o.length)
    (hh : ∀ b c, o.data = some b → s.Holds b c → s'.Holds b c) : s'.values k = s.values k := by
  rw [values_eq hk, values_eq hk', e.1, e.2.1, e.2.2.1, e.2.2.2]
  apply readRange_congr
  intro b hb
  obtain ⟨_, _, c, hc, _⟩ := (h.objs k o hk).window hb
  have := hh b c hb hc
  unfold Holds at hc this
  rw [hc, this]

/-- C47, values: after any legal history, a copy has the values of the original and is an owner
exactly if the original is, and no other series changes. -/
theorem C47_copy_values {ops : List (SOp α)} (hr : Respects Legal SState.init ops) {st : SState α}
    (he : SOp.run SState.init ops = .ok st) {j : Nat} {o : Obj α} (hj : Usable st.1 j o) :
    ∃ s' k o', st.1.copy j = .ok (s', k) ∧ s'.Live k o' ∧ o'.owner = o.owner ∧
      s'.values k = st.1.values j ∧
      ∀ i oi, st.1.Live i oi → i ≠ k ∧ s'.Live i oi ∧ s'.values i = st.1.values i := by
  have hinv := legal_run (P := Legal) (fun _ _ h => h) ops _ inv_init hr st he
  obtain ⟨s', o', g1, g2, g3, g4, g5, g6, g7⟩ := inv_copy hinv hj.1 hj.2
  refine ⟨s', _, o', g1, live_append_new g4, g5, g7, ?_⟩
  intro i oi hi
  have hl := (List.getElem?_eq_some_iff.mp hi).1
  refine ⟨by omega, live_append_old g4 hi, ?_⟩
  exact values_keep hinv hi (live_append_old g4 hi) ⟨rfl, rfl, rfl, rfl⟩ (fun b c _ hc => g3 b c hc)

/-- C47, values: after any legal history, copy assignment gives the target the values of the source
and changes no other series. -/
theorem C47_copy_assign_values {ops : List (SOp α)} (hr : Respects Legal SState.init ops)
    {st : SState α} (he : SOp.run SState.init ops = .ok st) {i j : Nat} {t o : Obj α}
    (hi : st.1.Live i t) (hj : Usable st.1 j o) (hij : i ≠ j) :
    ∃ s' o', st.1.copyAssign i j = .ok s' ∧ s'.Live i o' ∧ o'.owner = o.owner ∧
      s'.values i = st.1.values j ∧
      ∀ k ok, k ≠ i → st.1.Live k ok → s'.Live k ok ∧ s'.values k = st.1.values k := by
  have hinv := legal_run (P := Legal) (fun _ _ h => h) ops _ inv_init hr st he
  obtain ⟨s', o', g1, g2, g3, g4, g5, g6, g7⟩ := inv_copyAssign hinv hi hj.1 hj.2 (Or.inl hij)
  have hl := (List.getElem?_eq_some_iff.mp hi).1
  refine ⟨s', o', g1, ?_, g4, g6, ?_⟩
  · unfold Live
    rw [g3]
    simp [hl]
  · intro k ok hk hlive
    have hl' : s'.Live k ok := by
      unfold Live
      rw [g3, List.getElem?_set_ne (fun h => hk h.symm)]
      exact hlive
    exact ⟨hl', values_keep hinv hlive hl' ⟨rfl, rfl, rfl, rfl⟩
      (fun b c hb hc => g7 k ok b c hk hlive hb hc)⟩

/-- C47, values: after any legal history, move assignment gives the target the values the source
had, and changes no third series. -/
theorem C47_move_assign_values {ops : List (SOp α)} (hr : Respects Legal SState.init ops)
    {st : SState α} (he : SOp.run SState.init ops = .ok st) {i j : Nat} {t o : Obj α}
    (hi : st.1.Live i t) (hj : Usable st.1 j o) (hij : i ≠ j) :
    ∃ s', st.1.moveAssign i j = .ok s' ∧ s'.values i = st.1.values j ∧
      ∀ k ok, k ≠ i → k ≠ j → st.1.Live k ok → s'.Live k ok ∧ s'.values k = st.1.values k := by
  have hinv := legal_run (P := Legal) (fun _ _ h => h) ops _ inv_init hr st he
  obtain ⟨s', g1, g2, g3, g4, _⟩ := inv_moveAssign hinv hi hj.1
  have g4 := g4 hij
  have hl := (List.getElem?_eq_some_iff.mp hi).1
  refine ⟨s', g1, ?_, ?_⟩
  · have hl' : s'.Live i { o with cache := t.cache } := by
      unfold Live
      rw [g4, List.getElem?_set_ne (fun h => hij h.symm)]
      simp [hl]
    rw [values_eq hl', values_eq hj.1]
    apply readRange_congr
    intro b _
    rw [g3]
  · intro k ok hki hkj hlive
    have hl' : s'.Live k ok := by
      unfold Live
      rw [g4, List.getElem?_set_ne (fun h => hkj h.symm), List.getElem?_set_ne (fun h => hki h.symm)]
      exact hlive
    refine ⟨hl', values_keep hinv hlive hl' ⟨rfl, rfl, rfl, rfl⟩ ?_⟩
    intro b c _ hc
    unfold Holds
    rw [g3]
    exact hc

/-- C47, independence: after any legal history, writing an element of an owning series changes no
other series (in particular not the one it was copied from, nor a copy of it). -/
theorem C47_owners_independent {ops : List (SOp α)} (hr : Respects Legal SState.init ops)
    {st : SState α} (he : SOp.run SState.init ops = .ok st) {i k : Nat} {o ok : Obj α}
    (hi : Usable st.1 i o) (how : o.owner = true) (hk : st.1.Live k ok) (hik : k ≠ i)
    (idx : Int) (v : α) {s' : Store α} (hput : st.1.put i idx v = .ok s') :
    s'.values k = st.1.values k := by
  have hinv := legal_run (P := Legal) (fun _ _ h => h) ops _ inv_init hr st he
  obtain ⟨b, hb⟩ := Option.ne_none_iff_exists'.mp hi.2
  have hidx : 0 ≤ idx ∧ idx < o.length := by
    unfold put at hput
    rw [obj_eq_ok.mpr hi.1] at hput
    simp only [Res.bind_ok] at hput
    by_contra hc
    rw [if_pos (by omega)] at hput
    cases hput
  obtain ⟨s1, c, hc, g1, g2, g3, g4, g5⟩ := inv_put hinv hi.1 hb v hidx.1 hidx.2
  rw [g1] at hput
  cases hput
  have hk' : s'.Live k ok := by
    unfold Live
    rw [g3]
    exact hk
  refine values_keep hinv hk hk' ⟨rfl, rfl, rfl, rfl⟩ ?_
  intro b' c' hb' hc'
  have hne : b' ≠ b := by
    rintro rfl
    by_cases hok : ok.owner = true
    · exact hik (hinv.uniq k i ok o b' hk hi.1 hok how hb' hb)
    · exact ((hinv.objs i o hi.1).own how).2.2.2 b' hb |>.1
        ((hinv.objs k ok hk).view (by simpa using hok) b' hb').1
  unfold Holds
  rw [g5 b' hne]
  exact hc'

/-- A state for the value theorems: an owner and its copy. -/
example : Respects Legal (SState.init : SState α) [.newOwned 2, .copy 0] ∧
    ∃ st, SOp.run (SState.init : SState α) [.newOwned 2, .copy 0] = .ok st ∧
      (∃ o, Usable st.1 0 o ∧ o.owner = true) ∧ (∃ o, Usable st.1 1 o ∧ o.owner = true) := by
  constructor
  · simp [Respects, Legal, SState.init, SOp.step, newOwned, alloc, copy, obj, copyInto, readRange,
      block, Usable, Live]
  · simp [SOp.run, SState.init, SOp.step, newOwned, alloc, copy, obj, copyInto, readRange,
      block, Usable, Live]

/-! ## C48 -/

/-- The elements of the window of an object are the elements of its values. -/
theorem values_getElem? {s : Store α} {ext : List Nat} (h : s.Inv ext) {i : Nat} {o : Obj α}
    {b : Nat} {c : List α} (hi : s.Live i o) (hb : o.data = some b) (hc : s.Holds b c) :
    ∃ xs, s.values i = .ok xs ∧ len xs = o.length ∧
      ∀ q : Nat, (q : Int) < o.length → xs[q]? = c[(o.off + o.start + q).toNat]? := by
  obtain ⟨h1, h2, c', hc', h3⟩ := (h.objs i o hi).window hb
  have e : c' = c := hc'.inj hc
  subst e
  rw [values_eq hi, hb, readRange_ok hc h2 h1 h3]
  refine ⟨_, rfl, ?_, ?_⟩
  · simp only [len, List.length_take, List.length_drop] at *
    omega
  · intro q hq
    rw [List.getElem?_take_of_lt (by omega), List.getElem?_drop]
    congr 1
    omega

/-- C48, length check: adding a series of another length throws and leaves everything as it was. -/
theorem C48_add_length_mismatch (s : Store α) (i j : Nat) (o p : Obj α) (hi : s.Live i o)
    (hj : s.Live j p) (h : p.length ≠ o.length) :
    s.addAssign i j = .throw (.onex "Two time series must have the same length for addition") := by
  unfold addAssign
  rw [obj_eq_ok.mpr hi, obj_eq_ok.mpr hj]
  simp only [Res.bind_ok]
  rw [if_pos h]

/-- C48, for windows that do not overlap in the direction in which `+=` would read its own results:
after any legal history, `a += b` makes the values of `a` the pointwise sums and changes no memory
cell outside the window of `a`. -/
theorem C48_add_pointwise_partial {ops : List (SOp α)} (hr : Respects Legal SState.init ops)
    {st : SState α} (he : SOp.run SState.init ops = .ok st) {i j : Nat} {o p : Obj α} {b : Nat}
    (hi : st.1.Live i o) (hb : o.data = some b) (hj : Usable st.1 j p)
    (hlen : p.length = o.length) (hno : NoOverlap o p) :
    ∃ s' xs ys, st.1.addAssign i j = .ok s' ∧ st.1.values i = .ok xs ∧ st.1.values j = .ok ys ∧
      s'.values i = .ok (List.zipWith DataT.add xs ys) ∧
      (∀ b', b' ≠ b → s'.heap[b']? = st.1.heap[b']?) ∧
      (∃ c c', st.1.Holds b c ∧ s'.Holds b c' ∧ c'.length = c.length ∧
        ∀ q : Nat, ¬ (o.off + o.start ≤ q ∧ (q : Int) < o.off + o.start + o.length) →
          c'[q]? = c[q]?) := by
  have hinv := legal_run (P := Legal) (fun _ _ h => h) ops _ inv_init hr st he
  obtain ⟨b', hb'⟩ := Option.ne_none_iff_exists'.mp hj.2
  obtain ⟨w1, w2, ca, hca, w3⟩ := (hinv.objs i o hi).window hb
  obtain ⟨_, v2, cp, hcp, v3⟩ := (hinv.objs j p hj.1).window hb'
  obtain ⟨s', c', g1, g2, g3, g4, g5, g6, g7, g8⟩ := addAssign_spec hinv hi hj.1 hb hb' hca hcp hlen
  obtain ⟨xs, x1, x2, x3⟩ := values_getElem? hinv hi hb hca
  obtain ⟨ys, y1, y2, y3⟩ := values_getElem? hinv hj.1 hb' hcp
  have hl := (List.getElem?_eq_some_iff.mp hi).1
  have hi' : s'.Live i { o with cache := none } := by
    unfold Live
    rw [g2]
    simp [hl]
  obtain ⟨zs, z1, z2, z3⟩ := values_getElem? g3 hi' hb g4
  refine ⟨s', xs, ys, g1, x1, y1, ?_, g6, ca, c', hca, g4, g5, g7⟩
  rw [z1]
  congr 1
  simp only [len] at x2 y2 z2
  apply List.ext_getElem?
  intro q
  by_cases hq : (q : Int) < o.length
  · rw [z3 q hq, g8 hno _ (by simp only; omega), List.getElem?_zipWith, x3 q hq, y3 q (by omega)]
    have e : (p.off + p.start + (((o.off + o.start + q).toNat : Int) - (o.off + o.start))).toNat =
        (p.off + p.start + q).toNat := by omega
    simp only [e]
    rcases ca[(o.off + o.start + (q : Int)).toNat]? with _ | x <;>
      rcases cp[(p.off + p.start + (q : Int)).toNat]? with _ | y <;> rfl
  · rw [List.getElem?_eq_none (by omega), List.getElem?_eq_none (by simp; omega)]

/-- A case of C48: a series added to itself. -/
example : ∃ st : SState α, SOp.run (SState.init : SState α) [.newOwned 2] = .ok st ∧
    ∃ o, Usable st.1 0 o ∧ NoOverlap o o ∧ o.length = 2 := by
  refine ⟨_, rfl, ?_⟩
  simp [Usable, Live, NoOverlap, SState.init]

/-- C48 is false for overlapping windows: over a buffer `x, y, z`, adding the view `[0, 2)` to the
view `[1, 3)` turns the latter into `y + x, z + (y + x)` and not `y + x, z + y`. -/
theorem C48_overlap_counterexample (x y z : α) :
    ∃ st s', SOp.run (SState.init : SState α)
        [.newExt [x, y, z], .newView 0 0 0 1 3, .newView 0 0 0 0 2] = .ok st ∧
      st.1.values 0 = .ok [y, z] ∧ st.1.values 1 = .ok [x, y] ∧
      st.1.addAssign 0 1 = .ok s' ∧
      s'.values 0 = .ok [DataT.add y x, DataT.add z (DataT.add y x)] := by
  refine ⟨_, _, rfl, ?_, ?_, rfl, ?_⟩ <;> rfl

/-! ## C16 -/

/-- C16: for a series whose window lies in allocated memory, element access throws exactly when the
index is outside `0 .. length - 1`, and otherwise is the value at position `start + idx` of the row
the series points to (which begins `off` cells into its buffer). -/
theorem C16_element_access (s : Store α) (i : Nat) (o : Obj α) (b : Nat) (c : List α)
    (hi : s.Live i o) (hb : o.data = some b) (hc : s.Holds b c) (h0 : 0 ≤ o.off + o.start)
    (h1 : o.off + o.start + o.length ≤ len c) (idx : Int) :
    (s.get i idx = .throw (.onex "Data point index is out of range") ↔ idx < 0 ∨ o.length ≤ idx) ∧
    (0 ≤ idx → idx < o.length →
      ∃ v, s.get i idx = .ok v ∧ c[(o.off + (o.start + idx)).toNat]? = some v) := by
  have hin : 0 ≤ idx → idx < o.length →
      ∃ v, s.get i idx = .ok v ∧ c[(o.off + (o.start + idx)).toNat]? = some v := by
    intro ha hb'
    obtain ⟨v, g1, g2⟩ := vget_ok (l := c) (i := o.off + o.start + idx) (by omega) (by omega)
    exact ⟨v, by rw [get_ok hi hb hc ha hb', g1], by rw [← add_assoc]; exact g2⟩
  refine ⟨⟨?_, ?_⟩, hin⟩
  · intro h
    by_contra hn
    obtain ⟨v, h2, _⟩ := hin (by omega) (by omega)
    rw [h] at h2
    cases h2
  · intro h
    unfold Store.get
    rw [obj_eq_ok.mpr hi]
    simp only [Res.bind_ok]
    rw [if_pos (by omega)]

/-- After any legal history the windows of all usable series lie in allocated memory, and element
access reads the series' own values. -/
theorem C16_element_access_reachable {ops : List (SOp α)} (hr : Respects Legal SState.init ops)
    {st : SState α} (he : SOp.run SState.init ops = .ok st) {i : Nat} {o : Obj α}
    (hi : Usable st.1 i o) : ∃ b c xs, o.data = some b ∧ st.1.Holds b c ∧ 0 ≤ o.off + o.start ∧
      o.off + o.start + o.length ≤ len c ∧ st.1.values i = .ok xs ∧
      ∀ idx : Int, 0 ≤ idx → idx < o.length → ∃ v, st.1.get i idx = .ok v ∧ xs[idx.toNat]? = some v := by
  have hinv := legal_run (P := Legal) (fun _ _ h => h) ops _ inv_init hr st he
  obtain ⟨b, hb⟩ := Option.ne_none_iff_exists'.mp hi.2
  obtain ⟨h1, h2, c, hc, h3⟩ := (hinv.objs i o hi.1).window hb
  obtain ⟨xs, x1, x2, x3⟩ := values_getElem? hinv hi.1 hb hc
  refine ⟨b, c, xs, hb, hc, h2, h3, x1, ?_⟩
  intro idx g0 g1
  obtain ⟨v, g2, g3⟩ := (C16_element_access st.1 i o b c hi.1 hb hc h2 h3 idx).2 g0 g1
  refine ⟨v, g2, ?_⟩
  rw [x3 idx.toNat (by omega), ← g3]
  congr 1
  omega

/-- A view `[1, 3)` of a row that begins at cell 1 of a buffer: index 0 is cell 2. -/
example (w x y z : α) : ∃ st, SOp.run (SState.init : SState α)
      [.newExt [w, x, y, z], .newView 0 1 0 1 3] = .ok st ∧ st.1.get 0 0 = .ok y ∧
    st.1.get 0 2 = .throw (.onex "Data point index is out of range") :=
  ⟨_, rfl, rfl, rfl⟩

/-! ## C13 -/

/-- What a client must respect in addition for envelopes to stay right: elements are written only
while no series on the same buffer has a cached envelope, additions only while no other series on
the same buffer has one, and assignments only to series without one. -/
def CacheSafe (st : SState α) : SOp α → Prop
  | .put i _ _ => ∀ o k ok, st.1.Live i o → st.1.Live k ok → ok.data = o.data → ok.cache = none
  | .addAssign i _ => ∀ o k ok, st.1.Live i o → k ≠ i → st.1.Live k ok → ok.data = o.data →
      ok.cache = none
  | .copyAssign i _ => ∀ t, st.1.Live i t → t.cache = none
  | .moveAssign i _ => ∀ t, st.1.Live i t → t.cache = none
  | _ => True

/-- Cached envelopes belong to the present values. -/
def CacheInv (s : Store α) : Prop :=
  ∀ k o c, Usable s k o → o.cache = some c →
    ∃ vals junk, s.values k = .ok vals ∧ generateKeoghLU junk vals c.band = .ok (c.lower, c.upper)

theorem CacheInv.keep {s s' : Store α} {ext : List Nat} (h : s.Inv ext) (hc : CacheInv s)
    (hl : ∀ k o, s'.Live k o → o.data ≠ none → o.cache ≠ none →
      s.Live k o ∧ ∀ b c, o.data = some b → s.Holds b c → s'.Holds b c) : CacheInv s' := by
  intro k o c hu hcache
  obtain ⟨h1, h2⟩ := hl k o hu.1 hu.2 (by rw [hcache]; simp)
  obtain ⟨vals, junk, h3, h4⟩ := hc k o c ⟨h1, hu.2⟩ hcache
  exact ⟨vals, junk, by rw [values_keep h h1 hu.1 ⟨rfl, rfl, rfl, rfl⟩ h2, h3], h4⟩

theorem keogh_result {junk : α} {s s' : Store α} {i : Nat} {band : Int} {o : Obj α}
    {lu : List α × List α} (hi : Usable s i o) (hc : CacheInv s)
    (h : Store.keogh junk s i band = .ok (lu, s')) :
    ∃ vals junk', s.values i = .ok vals ∧ generateKeoghLU junk' vals band = .ok lu ∧
      s' = s.setObj i (some { o with cache := some ⟨band, lu.1, lu.2⟩ }) := by
  have fresh : s.keoghFresh junk i o band = .ok (lu, s') →
      ∃ vals junk', s.values i = .ok vals ∧ generateKeoghLU junk' vals band = .ok lu ∧
        s' = s.setObj i (some { o with cache := some ⟨band, lu.1, lu.2⟩ }) := by
    intro hr
    unfold keoghFresh at hr
    obtain ⟨vals, h1, hr⟩ := Res.bind_eq_ok.mp hr
    obtain ⟨lu', h2, hr⟩ := Res.bind_eq_ok.mp hr
    cases hr
    exact ⟨vals, junk, h1, h2, rfl⟩
  unfold Store.keogh at h
  rw [obj_eq_ok.mpr hi.1] at h
  simp only [Res.bind_ok] at h
  rcases hcc : o.cache with _ | c
  · rw [hcc] at h
    exact fresh h
  · rw [hcc] at h
    simp only at h
    split at h
    · rename_i hband
      cases h
      obtain ⟨vals, junk', h1, h2⟩ := hc i o c hi hcc
      refine ⟨vals, junk', h1, by rw [← hband]; exact h2, ?_⟩
      have e : ({ o with cache := some ⟨band, c.lower, c.upper⟩ } : Obj α) = o := by
        rw [← hband]
        cases o
        simp only at hcc
        simp [hcc]
      simp only [e]
      unfold setObj
      obtain ⟨g1, g2⟩ := (List.getElem?_eq_some_iff.mp hi.1)
      rw [← g2, List.set_getElem_self]
    · exact fresh h

theorem cache_step {st st' : SState α} (h : st.1.Inv st.2) (hc : CacheInv st.1) {op : SOp α}
    (hl : Legal st op) (hs : CacheSafe st op) (e : op.step st = .ok st') : CacheInv st'.1 := by
  rcases st with ⟨s, ext⟩
  cases op with
  | newOwned n =>
    simp only [SOp.step] at e
    by_cases hn : 0 ≤ n
    · obtain ⟨s', h1, h2, h3, o, h4, _, h6, _⟩ := inv_newOwned h hn
      have h4 : s'.objs = s.objs ++ [some o] := h4
      rw [h1] at e
      cases e
      refine hc.keep h ?_
      intro k ok hk _ hcache
      unfold Live at hk
      simp only at hk
      rw [h4] at hk
      by_cases hlt : k < s.objs.length
      · rw [List.getElem?_append_left hlt] at hk
        exact ⟨hk, fun b c _ hb => h3 b c hb⟩
      · rw [List.getElem?_append_right (by omega)] at hk
        rcases hz : k - s.objs.length with _ | z
        · rw [hz] at hk
          simp at hk
          exact absurd (hk ▸ h6) hcache
        · rw [hz] at hk
          simp at hk
    · unfold newOwned at e
      rw [if_pos (by omega)] at e
      cases e
  | newExt cells =>
    cases e
    exact hc.keep h (fun k o hk _ _ => ⟨hk, fun b c _ hb => holds_alloc hb⟩)
  | newView b off index start stop =>
    cases e
    refine hc.keep h ?_
    intro k ok hk _ hcache
    unfold Live newView at hk
    simp only at hk
    by_cases hlt : k < s.objs.length
    · rw [List.getElem?_append_left hlt] at hk
      exact ⟨hk, fun b c _ hb => hb⟩
    · rw [List.getElem?_append_right (by omega)] at hk
      rcases hz : k - s.objs.length with _ | z
      · rw [hz] at hk
        simp at hk
        exact absurd (hk ▸ rfl) hcache
      · rw [hz] at hk
        simp at hk
  | copy j =>
    obtain ⟨o, h1, h2⟩ := hl
    obtain ⟨s', o', g1, g2, g3, g4, _, g6, _⟩ := inv_copy h h1 h2
    have g4 : s'.objs = s.objs ++ [some o'] := g4
    simp only [SOp.step, g1, Res.bind_ok, Res.pure_eq] at e
    cases e
    refine hc.keep h ?_
    intro k ok hk _ hcache
    unfold Live at hk
    simp only at hk
    rw [g4] at hk
    by_cases hlt : k < s.objs.length
    · rw [List.getElem?_append_left hlt] at hk
      exact ⟨hk, fun b c _ hb => g3 b c hb⟩
    · rw [List.getElem?_append_right (by omega)] at hk
      rcases hz : k - s.objs.length with _ | z
      · rw [hz] at hk
        simp at hk
        exact absurd (hk ▸ g6) hcache
      · rw [hz] at hk
        simp at hk
  | copyAssign i j =>
    obtain ⟨t, o, h1, ⟨h2, h3⟩, h4⟩ := hl
    obtain ⟨s', o', g1, g2, g3, _, g5, _, g7⟩ := inv_copyAssign h h1 h2 h3 h4
    simp only [SOp.step, g1, Res.bind_ok, Res.pure_eq] at e
    cases e
    refine hc.keep h ?_
    intro k ok hk hd hcache
    unfold Live at hk
    simp only at hk
    rw [g3, List.getElem?_set] at hk
    by_cases hki : i = k
    · subst hki
      have hlt := (List.getElem?_eq_some_iff.mp h1).1
      rw [if_pos rfl, if_pos hlt] at hk
      simp at hk
      exact absurd (hk ▸ g5.trans (hs t h1)) hcache
    · rw [if_neg hki] at hk
      exact ⟨hk, fun b c hb hcb => g7 k ok b c (fun he => hki he.symm) hk hb hcb⟩
  | moveAssign i j =>
    obtain ⟨t, o, h1, h2⟩ := hl
    obtain ⟨s', g1, g2, g3, g4, g5⟩ := inv_moveAssign h h1 h2
    simp only [SOp.step, g1, Res.bind_ok, Res.pure_eq] at e
    cases e
    refine hc.keep h ?_
    intro k ok hk hd hcache
    have hh : ∀ b c, s.Holds b c → s'.Holds b c := by
      intro b c hb
      unfold Holds
      rw [g3]
      exact hb
    unfold Live at hk
    simp only at hk
    have hlt := (List.getElem?_eq_some_iff.mp h1).1
    have hlt2 := (List.getElem?_eq_some_iff.mp h2).1
    by_cases hij : i = j
    · rw [g5 hij, List.getElem?_set] at hk
      by_cases hki : i = k
      · rw [if_pos hki, if_pos (hki ▸ hlt)] at hk
        simp at hk
        exact absurd (hk ▸ rfl) hd
      · rw [if_neg hki] at hk
        exact ⟨hk, fun b c _ hb => hh b c hb⟩
    · rw [g4 hij, List.getElem?_set] at hk
      by_cases hkj : j = k
      · rw [if_pos hkj, if_pos (by simp; omega)] at hk
        simp at hk
        exact absurd (hk ▸ rfl) hd
      · rw [if_neg hkj, List.getElem?_set] at hk
        by_cases hki : i = k
        · rw [if_pos hki, if_pos (hki ▸ hlt)] at hk
          simp at hk
          exact absurd (hk ▸ hs t h1) hcache
        · rw [if_neg hki] at hk
          exact ⟨hk, fun b c _ hb => hh b c hb⟩
  | destroy i =>
    obtain ⟨t, h1⟩ := hl
    obtain ⟨s', g1, g2, g3, g4⟩ := inv_destroy h h1
    simp only [SOp.step, g1, Res.bind_ok, Res.pure_eq] at e
    cases e
    refine hc.keep h ?_
    intro k ok hk hd hcache
    unfold Live at hk
    simp only at hk
    rw [g3, List.getElem?_set] at hk
    by_cases hki : i = k
    · subst hki
      have hlt := (List.getElem?_eq_some_iff.mp h1).1
      rw [if_pos rfl, if_pos hlt] at hk
      simp at hk
    · rw [if_neg hki] at hk
      exact ⟨hk, fun b c hb hcb => g4 k ok b c (fun he => hki he.symm) hk hb hcb⟩
  | put i idx v =>
    obtain ⟨o, h1, h2⟩ := hl
    obtain ⟨b, hb⟩ := Option.ne_none_iff_exists'.mp h2
    simp only [SOp.step] at e
    by_cases hidx : 0 ≤ idx ∧ idx < o.length
    · obtain ⟨s', c, hcb, g1, g2, g3, g4, g5⟩ := inv_put h h1 hb v hidx.1 hidx.2
      simp only [g1, Res.bind_ok, Res.pure_eq] at e
      cases e
      refine hc.keep h ?_
      intro k ok hk hd hcache
      unfold Live at hk
      simp only at hk
      rw [g3] at hk
      refine ⟨hk, ?_⟩
      intro b' c' hb' hc'
      have hne : b' ≠ b := by
        rintro rfl
        exact hcache (hs o k ok h1 hk (hb'.trans hb.symm))
      unfold Holds
      rw [g5 b' hne]
      exact hc'
    · unfold put at e
      rw [obj_eq_ok.mpr h1] at e
      simp only [Res.bind_ok] at e
      rw [if_pos (by omega)] at e
      cases e
  | addAssign i j =>
    obtain ⟨o, p, ⟨h1, h2⟩, h3, h4⟩ := hl
    obtain ⟨b, hb⟩ := Option.ne_none_iff_exists'.mp h2
    obtain ⟨b', hb'⟩ := Option.ne_none_iff_exists'.mp h4
    obtain ⟨_, _, ca, hca, _⟩ := (h.objs i o h1).window hb
    obtain ⟨_, _, cp, hcp, _⟩ := (h.objs j p h3).window hb'
    simp only [SOp.step] at e
    by_cases hlen : p.length = o.length
    · obtain ⟨s', c', g1, g2, g3, g4, g5, g6, _⟩ := addAssign_spec h h1 h3 hb hb' hca hcp hlen
      simp only [g1, Res.bind_ok, Res.pure_eq] at e
      cases e
      refine hc.keep h ?_
      intro k ok hk hd hcache
      unfold Live at hk
      simp only at hk
      rw [g2, List.getElem?_set] at hk
      by_cases hki : i = k
      · subst hki
        have hlt := (List.getElem?_eq_some_iff.mp h1).1
        rw [if_pos rfl, if_pos hlt] at hk
        simp at hk
        exact absurd (hk ▸ rfl) hcache
      · rw [if_neg hki] at hk
        refine ⟨hk, ?_⟩
        intro b'' c'' hb'' hc''
        have hne : b'' ≠ b := by
          rintro rfl
          exact hcache (hs o k ok h1 (fun he => hki he.symm) hk (hb''.trans hb.symm))
        unfold Holds
        rw [g6 b'' hne]
        exact hc''
    · unfold addAssign at e
      rw [obj_eq_ok.mpr h1, obj_eq_ok.mpr h3] at e
      simp only [Res.bind_ok] at e
      rw [if_pos hlen] at e
      cases e
  | keogh junk i band =>
    obtain ⟨o, hu⟩ := hl
    simp only [SOp.step] at e
    obtain ⟨⟨lu, s'⟩, e1, e2⟩ := Res.bind_eq_ok.mp e
    cases e2
    obtain ⟨vals, junk', k1, k2, rfl⟩ := keogh_result hu hc e1
    intro k ok c hk hcache
    rcases live_setObj hk.1 with ⟨a1, a2⟩ | ⟨a1, a2⟩
    · obtain ⟨vals', junk2, h3, h4⟩ := hc k ok c ⟨a2, hk.2⟩ hcache
      refine ⟨vals', junk2, ?_, h4⟩
      rw [values_keep h a2 hk.1 ⟨rfl, rfl, rfl, rfl⟩ (fun b c _ hb => hb), h3]
    · subst a1
      cases a2
      cases hcache
      refine ⟨vals, junk', ?_, k2⟩
      rw [values_keep h hu.1 hk.1 ⟨rfl, rfl, rfl, rfl⟩ (fun b c _ hb => hb), k1]

theorem cache_run : ∀ (ops : List (SOp α)) (st : SState α), st.1.Inv st.2 → CacheInv st.1 →
    Respects (fun st op => Legal st op ∧ CacheSafe st op) st ops →
      ∀ st', SOp.run st ops = .ok st' → CacheInv st'.1
  | [], st, _, hc, _, st', e => by
    simp only [SOp.run, Res.ok.injEq] at e
    exact e ▸ hc
  | op :: ops, st, h, hc, hr, st', e => by
    obtain ⟨⟨h1, h1'⟩, h2⟩ := hr
    unfold SOp.run at e
    cases hs : op.step st with
    | ok st1 =>
      rw [hs] at h2 e
      exact cache_run ops st1 ((legal_step h h1).1 st1 hs) (cache_step h hc h1 h1' hs) h2 st' e
    | throw m =>
      rw [hs] at h2 e
      exact cache_run ops st h hc h2 st' e
    | ub w => rw [hs] at e; cases e

theorem cacheInv_init : CacheInv (SState.init : SState α).1 := by
  intro k o c h
  simp [Usable, Live, SState.init] at h

/-- C13, for clients that write elements, add to aliased buffers and assign only while no envelope
is cached there: after any such history, with envelope requests for any bands, an envelope request
returns what computing the envelope of the present values afresh returns. -/
theorem C13_envelope_current_partial {ops : List (SOp α)}
    (hr : Respects (fun st op => Legal st op ∧ CacheSafe st op) SState.init ops) {st : SState α}
    (he : SOp.run SState.init ops = .ok st) {i : Nat} {o : Obj α} (hi : Usable st.1 i o)
    {junk : α} {band : Int} {lu : List α × List α} {s' : Store α}
    (hk : Store.keogh junk st.1 i band = .ok (lu, s')) :
    ∃ vals junk', st.1.values i = .ok vals ∧ generateKeoghLU junk' vals band = .ok lu := by
  obtain ⟨vals, junk', h1, h2, _⟩ :=
    keogh_result hi (cache_run ops _ inv_init cacheInv_init hr st he) hk
  exact ⟨vals, junk', h1, h2⟩

/-- C13 for real values, in the terms of the specification: the request succeeds and returns the
envelope of the present values. -/
theorem C13_envelope_current_real_partial {ρ : Rounding} {ops : List (SOp (F ρ))}
    (hr : Respects (fun st op => Legal st op ∧ CacheSafe st op) SState.init ops)
    {st : SState (F ρ)} (he : SOp.run SState.init ops = .ok st) {i : Nat} {o : Obj (F ρ)}
    (hi : Usable st.1 i o) {x : List ℝ} (hx : st.1.values i = .ok (fins x)) (hx1 : 1 ≤ x.length)
    (junk : F ρ) (w : ℕ) :
    ∃ lo up s', Store.keogh junk st.1 i (w : Int) = .ok ((fins lo, fins up), s') ∧
      IsEnvelope x lo up w := by
  have hc := cache_run ops _ inv_init cacheInv_init hr st he
  have hok : ∃ r, Store.keogh junk st.1 i (w : Int) = .ok r := by
    obtain ⟨lo, up, h1, h2⟩ := generateKeoghLU_spec junk x hx1 w
    have fresh : ∃ r, st.1.keoghFresh junk i o (w : Int) = .ok r := by
      unfold keoghFresh
      rw [hx]
      simp only [Res.bind_ok, h1]
      exact ⟨_, rfl⟩
    unfold Store.keogh
    rw [obj_eq_ok.mpr hi.1]
    simp only [Res.bind_ok]
    rcases hcc : o.cache with _ | c
    · exact fresh
    · simp only
      split
      · exact ⟨_, rfl⟩
      · exact fresh
  obtain ⟨⟨lu, s'⟩, hk⟩ := hok
  obtain ⟨vals, junk', h1, h2, _⟩ := keogh_result hi hc hk
  rw [hx] at h1
  cases h1
  obtain ⟨lo, up, g1, g2⟩ := generateKeoghLU_spec junk' x hx1 w
  rw [h2] at g1
  cases g1
  exact ⟨lo, up, s', hk, g2⟩

/-- The envelope of one zero, and a one-point series of any other value: not the same. -/
theorem envelope_zero_ne {lo up lo' up' : List ℝ} {v : ℝ} (hv : v ≠ 0) (h : IsEnvelope [0] lo up 0)
    (h' : IsEnvelope [v] lo' up' 0) : lo ≠ lo' := by
  rintro rfl
  obtain ⟨⟨j, h1, h2, h3⟩, _⟩ := h.low 0 (by simp)
  obtain ⟨⟨j', h1', h2', h3'⟩, _⟩ := h'.low 0 (by simp)
  have e : j = 0 := by omega
  have e' : j' = 0 := by omega
  subst e e'
  simp only [List.getElem?_cons_zero, Option.some.injEq] at h1 h1'
  exact hv (h1'.trans h1.symm)

/-- A history for C13: an envelope request, an addition, another request. -/
example (junk : F Rounding.exact) :
    Respects (fun st op => Legal st op ∧ CacheSafe st op) SState.init
      [.newOwned 1, .keogh junk 0 0, .addAssign 0 0, .keogh junk 0 0] := by
  obtain ⟨lo, up, h1, _⟩ := generateKeoghLU_spec junk [0] (by simp) 0
  have hz : (fins [0] : List (F Rounding.exact)) = [F.fin 0] := by simp [fins]
  rw [hz] at h1
  have h1' : generateKeoghLU junk [F.fin 0] 0 = .ok (fins lo, fins up) := h1
  simp [Respects, Legal, CacheSafe, SState.init, SOp.step, newOwned, alloc, Store.keogh, obj,
    keoghFresh, values, readRange, block, h1', setObj, addAssign, forInt, forIntGo, vget, poke,
    Store.get, vset, Usable, Live, len, List.getElem?_cons]
  intro _ _ _ _ h h'
  exact absurd h' h

/-- C13 is false as it stands: an element written through `operator[]` does not invalidate the
cached envelope. The series is 5 and its envelope is reported to be that of 0. -/
theorem C13_stale_after_write_counterexample (junk : F Rounding.exact) :
    ∃ ops st lo up s', Respects Legal SState.init ops ∧ SOp.run SState.init ops = .ok st ∧
      st.1.values 0 = .ok (fins [5]) ∧ Store.keogh junk st.1 0 0 = .ok ((fins lo, fins up), s') ∧
      ∀ lo' up', IsEnvelope [5] lo' up' 0 → lo ≠ lo' := by
  obtain ⟨lo, up, h1, h2⟩ := generateKeoghLU_spec junk [0] (by simp) 0
  have hz : (fins [0] : List (F Rounding.exact)) = [F.fin 0] := by simp [fins]
  rw [hz] at h1
  have h1' : generateKeoghLU junk [F.fin 0] 0 = .ok (fins lo, fins up) := h1
  refine ⟨[.newOwned 1, .keogh junk 0 0, .put 0 0 (F.fin 5)],
    ({ heap := [⟨true, [F.fin 5]⟩], objs := [some ⟨some 0, 0, true, 0, 0, 1, 1, some ⟨0, fins lo, fins up⟩⟩] }, []),
    lo, up, _, ?_, ?_, ?_, rfl, fun lo' up' h => envelope_zero_ne (by norm_num) h2 h⟩
  · simp [Respects, Legal, SState.init, SOp.step, newOwned, alloc, Store.keogh, obj, keoghFresh, values,
      readRange, block, h1', setObj, put, poke, vset, Usable, Live]
  · simp [SState.init, SOp.run, SOp.step, newOwned, alloc, Store.keogh, obj, keoghFresh, values,
      readRange, block, h1', setObj, put, poke, vset]
  · simp [values, obj, readRange, block, fins]

/-- C13 is false as it stands: assigning to a series does not invalidate its cached envelope. -/
theorem C13_stale_after_assignment_counterexample (junk : F Rounding.exact) :
    ∃ ops st lo up s', Respects Legal SState.init ops ∧ SOp.run SState.init ops = .ok st ∧
      st.1.values 0 = .ok (fins [5]) ∧ Store.keogh junk st.1 0 0 = .ok ((fins lo, fins up), s') ∧
      ∀ lo' up', IsEnvelope [5] lo' up' 0 → lo ≠ lo' := by
  obtain ⟨lo, up, h1, h2⟩ := generateKeoghLU_spec junk [0] (by simp) 0
  have hz : (fins [0] : List (F Rounding.exact)) = [F.fin 0] := by simp [fins]
  rw [hz] at h1
  have h1' : generateKeoghLU junk [F.fin 0] 0 = .ok (fins lo, fins up) := h1
  refine ⟨[.newOwned 1, .keogh junk 0 0, .newOwned 1, .put 1 0 (F.fin 5), .copyAssign 0 1],
    ({ heap := [⟨false, [DataT.zero]⟩, ⟨true, [F.fin 5]⟩, ⟨true, [F.fin 5]⟩],
       objs := [some ⟨some 2, 0, true, 0, 0, 1, 1, some ⟨0, fins lo, fins up⟩⟩,
         some ⟨some 1, 0, true, 0, 0, 1, 1, none⟩] }, []),
    lo, up, _, ?_, ?_, ?_, rfl, fun lo' up' h => envelope_zero_ne (by norm_num) h2 h⟩
  · simp [Respects, Legal, SState.init, SOp.step, newOwned, alloc, Store.keogh, obj, keoghFresh, values,
      readRange, block, h1', setObj, put, poke, vset, Usable, Live]
    split <;> trivial
  · simp [SState.init, SOp.run, SOp.step, newOwned, alloc, Store.keogh, obj, keoghFresh, values,
      readRange, block, h1', setObj, put, poke, vset, copyAssign, free, copyInto]
  · simp [values, obj, readRange, block, fins]

end Onex
