import Verif.Proofs.LeakGroups
import Verif.Props.Unaffected

/-!
# C66: memory that series lose

`operator=(TimeSeries&&)` (src/TimeSeries.cpp:36-46) takes over the other series' data without
releasing what the target owned.
-/

namespace Onex

open Store Spec

variable {α : Type} [DataT α]

/-- C66: after any history of use that respects the rules of `Legal`, the blocks that nobody can
release any more are exactly those that were owned by the target of a move assignment when it was
assigned to; each is lost once. -/
theorem C66_leaked (ops : List (SOp α)) (hr : Respects Legal SState.init ops) (st : SState α)
    (h : SOp.run SState.init ops = .ok st) :
    (overwrittenIn SState.init ops).Nodup ∧ ∀ b, Leaked st b ↔ b ∈ overwrittenIn SState.init ops := by
  have := accounted_run ops _ st [] inv_init hr accounted_init h
  rwa [List.nil_append] at this

/-- C66: if no series that owns data is the target of a move assignment, then destroying all series
releases all their memory. -/
theorem C66_all_released (ops : List (SOp α)) (hr : Respects Legal SState.init ops) (st : SState α)
    (h : SOp.run SState.init ops = .ok st) (hno : overwrittenIn SState.init ops = [])
    (hdead : NoneLeft st.1) (b : Nat) (hb : Allocated st.1 b) : b ∈ st.2 := by
  by_contra hx
  have := ((C66_leaked ops hr st h).2 b).mp ⟨hb, hx, fun i ⟨o, ho, _⟩ => hdead i o ho⟩
  rw [hno] at this
  cases this

theorem run_append : ∀ (ops more : List (SOp α)) (st st' : SState α), SOp.run st ops = .ok st' →
    SOp.run st (ops ++ more) = SOp.run st' more ∧
    overwrittenIn st (ops ++ more) = overwrittenIn st ops ++ overwrittenIn st' more ∧
    (Respects Legal st (ops ++ more) ↔ Respects Legal st ops ∧ Respects Legal st' more)
  | [], more, st, st', h => by
    simp only [SOp.run, Res.ok.injEq] at h
    subst h
    simp [overwrittenIn, Respects]
  | op :: ops, more, st, st', h => by
    simp only [SOp.run] at h
    cases hs : op.step st with
    | ok st1 =>
      rw [hs] at h
      obtain ⟨h1, h2, h3⟩ := run_append ops more st1 st' h
      simp only [List.cons_append, SOp.run, overwrittenIn, Respects, hs, h1, h2, h3,
        List.append_assoc, true_and, and_assoc]
    | throw e =>
      rw [hs] at h
      obtain ⟨h1, h2, h3⟩ := run_append ops more st st' h
      simp only [List.cons_append, SOp.run, overwrittenIn, Respects, hs, h1, h2, h3,
        List.append_assoc, true_and, and_assoc]
    | ub w => rw [hs] at h; cases h

/-- C66: what is lost stays lost. -/
theorem C66_forever (ops more : List (SOp α)) (hr : Respects Legal SState.init (ops ++ more))
    (st st' : SState α) (h : SOp.run SState.init ops = .ok st) (h' : SOp.run st more = .ok st')
    (b : Nat) (hb : Leaked st b) : Leaked st' b := by
  obtain ⟨h1, h2, h3⟩ := run_append ops more _ st h
  rw [((C66_leaked _ hr st' (h1.trans h')).2 b), h2]
  exact List.mem_append_left _ (((C66_leaked ops (h3.mp hr).1 st h).2 b).mp hb)

/-- The history that shows it: two owners, one moved into the other, both destroyed. -/
def moveHistory : List (SOp α) :=
  [.newOwned 1, .newOwned 1, .moveAssign 0 1, .destroy 0, .destroy 1]

/-- C66, without the condition on moves, is false of the code: all series are destroyed, and a
block stays allocated. -/
theorem C66_move_counterexample : Respects Legal (SState.init : SState α) moveHistory ∧
    ∃ st : SState α, SOp.run SState.init moveHistory = .ok st ∧
      NoneLeft st.1 ∧ Leaked st 0 := by
  have hr : Respects Legal (SState.init : SState α) moveHistory := by
    simp [moveHistory, Respects, Legal, SState.init, SOp.step, newOwned, alloc, obj, moveAssign,
      setObj, destroy, free, Live]
  refine ⟨hr, ?_⟩
  have hrun : SOp.run (SState.init : SState α) moveHistory =
      .ok ({ heap := [⟨true, [DataT.zero]⟩, ⟨false, [DataT.zero]⟩], objs := [none, none] }, []) := by
    simp [moveHistory, SState.init, SOp.run, SOp.step, newOwned, alloc, obj, moveAssign,
      setObj, destroy, free]
  refine ⟨_, hrun, ?_, ⟨⟨_, rfl, rfl⟩, by simp, ?_⟩⟩
  · intro i o h
    rcases i with _ | _ | i <;> simp at h
  · rintro i ⟨o, h, _⟩
    rcases i with _ | _ | i <;> simp at h

/-- C66 for centroids: every group, whether it was made by grouping or read from a file, loses one
array of the length of its members; nothing else is lost when the groups are deleted. -/
theorem C66_centroids (buf : List α) (gs : List (Group α)) (hg : ∀ g ∈ gs, CentroidIn buf g) :
    ∃ (st : SState α) (lost : List Nat), SOp.run SState.init (centroidLife buf gs) = .ok st ∧
      NoneLeft st.1 ∧ lost.Nodup ∧ (∀ b, Leaked st b ↔ b ∈ lost) ∧
      lost.map (blockSize st.1) = gs.map (·.memberLength) := by
  obtain ⟨st, lost, h1, _, h2, h3, h4, h5⟩ := centroidLife_run hg
  exact ⟨st, lost, h1, h2, h3, h4, h5⟩

/-- C66: grouping a dataset into `n` groups and deleting the groups leaves `n` arrays allocated that
nobody can release, one per group, as long as the members of the group. -/
theorem C66_grouping (env : Env α) (name : String) (th : α) (s s' : GSet α) (L : Nat)
    (R : List (List α)) (hR : s.ds.Holds L R) (buf : List α) (hbuf : s.ds.data = some buf) (n : Int)
    (h : s.groupAllLengths env name th = (.ok n, s')) :
    ∃ gs, s'.groups = some gs ∧ ∃ (st : SState α) (lost : List Nat),
      SOp.run SState.init (centroidLife buf gs.allGroups) = .ok st ∧
      NoneLeft st.1 ∧ lost.Nodup ∧ (∀ b, Leaked st b ↔ b ∈ lost) ∧
      (lost.length : Int) = n ∧
      lost.map (blockSize st.1) = gs.allGroups.map (·.memberLength) := by
  obtain ⟨_, _, gs, dn, a3, _, _, a6⟩ := groupAllLengths_ok h
  obtain ⟨st, lost, h1, h2, h3, h4, h5⟩ := C66_centroids buf gs.allGroups
    (grouped_centroidIn hR hbuf a6)
  refine ⟨gs, a3, st, lost, h1, h2, h3, h4, ?_, h5⟩
  rw [a6.total, ← allGroups_length]
  have := congrArg List.length h5
  simpa using this

/-- C66: so does loading groups from a file, whatever the file. -/
theorem C66_loading (env : Env α) (file : Option Text) (s s' : GSet α) (buf : List α) (n : Int)
    (h : s.loadGroups env file = (.ok n, s')) :
    ∃ gs, s'.groups = some gs ∧ ∃ (st : SState α) (lost : List Nat),
      SOp.run SState.init (centroidLife buf gs.allGroups) = .ok st ∧
      NoneLeft st.1 ∧ lost.Nodup ∧ (∀ b, Leaked st b ↔ b ∈ lost) ∧
      lost.length = gs.allGroups.length ∧
      lost.map (blockSize st.1) = gs.allGroups.map (·.memberLength) := by
  obtain ⟨_, st0, gs, h1, h2⟩ := loadGroups_ok h
  obtain ⟨st, lost, g1, g2, g3, g4, g5⟩ := C66_centroids buf gs.allGroups
    (loaded_centroidIn buf h2)
  refine ⟨gs, h1, st, lost, g1, g2, g3, g4, ?_, g5⟩
  have := congrArg List.length g5
  simpa using this

/-- A history without such moves: an owner, its copy, an assignment, a move into a view, and the
destruction of everything. -/
example : let ops : List (SOp α) := [.newExt [DataT.zero, DataT.zero], .newOwned 2, .copy 0,
      .newView 0 0 0 0 2, .copyAssign 1 0, .moveAssign 2 1, .destroy 0, .destroy 1, .destroy 2]
    Respects Legal SState.init ops ∧ overwrittenIn SState.init ops = [] ∧
      ∃ st, SOp.run SState.init ops = .ok st ∧ NoneLeft st.1 := by
  intro ops
  refine ⟨?_, ?_, ?_⟩
  · simp [ops, Respects, Legal, Usable, SState.init, SOp.step, newOwned, newView, alloc, copy, obj,
      copyInto, copyAssign, readRange, block, moveAssign, setObj, destroy, free, Live, Holds, len]
  · simp [ops, overwrittenIn, overwritten, ownedBlock, SState.init, SOp.step, newOwned, newView,
      alloc, copy, obj, copyInto, copyAssign, readRange, block, moveAssign, setObj, destroy, free, len]
  · let z : List α := [DataT.zero, DataT.zero]
    refine ⟨({ heap := [⟨true, z⟩, ⟨false, z⟩, ⟨false, z⟩, ⟨false, z⟩], objs := [none, none, none] }, [0]),
      ?_, ?_⟩
    · simp [ops, z, SState.init, SOp.run, SOp.step, newOwned, newView, alloc, copy, obj, copyInto,
        copyAssign, readRange, block, moveAssign, setObj, destroy, free, len]
    · intro i o h
      rcases i with _ | _ | _ | i <;> simp at h

/-- `C66_grouping` applies to the five series of the grouping example. -/
example (io : NumIO (F Rounding.exact)) (stod : Text → Stod (F Rounding.exact))
    (doLog : Int → Bool) (st : ℝ) :
    let R : List (List ℝ) := [[0, 1, 2], [0, 1, 3], [5, 5, 5], [5, 5, 6], [9, 1, 2]]
    let env : Env (F Rounding.exact) := ⟨F.fin 1, F.nan, io, stod, doLog⟩
    let s : GSet (F Rounding.exact) := ⟨⟨some (R.map fins).flatten, 0, 3, 5, "", false⟩, none, none⟩
    ∃ n s' gs, s.groupAllLengths env "euclidean" (F.fin st) = (.ok n, s') ∧ s'.groups = some gs ∧
      ∃ (t : SState (F Rounding.exact)) (lost : List Nat),
        SOp.run SState.init (centroidLife (R.map fins).flatten gs.allGroups) = .ok t ∧
        (∀ b, Leaked t b ↔ b ∈ lost) ∧ (lost.length : Int) = n := by
  intro R env s
  have hR : s.ds.Holds 3 (R.map fins) := by
    refine ⟨?_, rfl, rfl, [], by simp [s]⟩
    intro r hr
    simp only [R, List.map_cons, List.map_nil, List.mem_cons, List.not_mem_nil, or_false] at hr
    rcases hr with rfl | rfl | rfl | rfl | rfl <;> rfl
  have hfit := ratioOk_of (ratio := 1) (L := 3) (by norm_num) (by norm_num)
  obtain ⟨n, s', h⟩ := C36_completes_partial env 1 rfl s 3 R hR hfit "euclidean" (Or.inl rfl) (F.fin st)
    (Or.inl (by simp [R]))
  obtain ⟨gs, h1, t, lost, h2, _, _, h3, h4, _⟩ := C66_grouping env _ _ s s' 3 _ hR _ rfl n h
  exact ⟨n, s', gs, h, h1, t, lost, h2, h3, h4⟩

end Onex
