import Verif.Props.Load
import Verif.Proofs.DatasetInv

/-!
# C17 on every reachable dataset

Histories of `loadData`, `clearData`, `normalize` and `PAA` on a dataset, starting from a fresh one.
-/

namespace Onex
open Spec

variable {α : Type} [DataT α]

/-- The operations that change a dataset. The start column must not be negative: otherwise loading writes outside
the buffer (`C19_negative_start_column_undefined`). -/
inductive DsOp (α : Type) where
  | load (stod : Text → Stod α) (file : Option Text) (path : String) (maxNumRow : Int) (startCol : Nat) (seps : Text)
  | clear
  | normalize
  | paa (junk : α) (n : Int)

/-- Outcome and state after one operation. -/
def DsOp.step (ds : Dataset α) : DsOp α → Res Unit × Dataset α
  | .load stod file path m s seps => ds.loadData stod file path m s seps
  | .clear => (.ok (), ds.clear)
  | .normalize => ((ds.normalize.1 >>= fun _ => .ok ()), ds.normalize.2)
  | .paa junk n => ds.PAA junk n

/-- The state after a history in which nothing undefined happened; exceptions are caught by the client. -/
def DsOp.run (ds : Dataset α) : List (DsOp α) → Option (Dataset α)
  | [] => some ds
  | op :: ops =>
    match op.step ds with
    | (.ub _, _) => none
    | (_, ds') => DsOp.run ds' ops

theorem DsOp.step_readable {ds : Dataset α} (h : ds.Readable) (op : DsOp α) (hu : ¬ (op.step ds).1.IsUb) :
    (op.step ds).2.Readable := by
  cases op with
  | load stod file path m s seps =>
    show (ds.loadData stod file path m s seps).2.Readable
    rcases hr : ds.loadData stod file path m s seps with ⟨r, ds'⟩
    cases r with
    | ok a => exact C19_successful_load_readable stod file path m s seps ds ds' hr
    | throw e =>
      obtain ⟨h1, h2, h3⟩ := C19_failed_load_is_empty stod file path m s seps ds ds' e hr
      exact ⟨by rw [h2], fun _ => h2, fun b hb => by rw [h1] at hb; cases hb⟩
    | ub w =>
      exfalso
      apply hu
      show (ds.loadData stod file path m s seps).1.IsUb
      rw [hr]
      trivial
  | clear => exact clear_readable ds
  | normalize => exact normalize_readable h
  | paa junk n => exact PAA_readable junk n h

theorem DsOp.run_readable {ds : Dataset α} (h : ds.Readable) (ops : List (DsOp α)) {ds' : Dataset α}
    (hr : DsOp.run ds ops = some ds') : ds'.Readable := by
  induction ops generalizing ds with
  | nil => cases hr; exact h
  | cons op ops ih =>
    unfold DsOp.run at hr
    have hstep := DsOp.step_readable h op
    rcases hs : op.step ds with ⟨r, d⟩
    rw [hs] at hr hstep
    cases r with
    | ok a => exact ih (hstep id) hr
    | throw e => exact ih (hstep id) hr
    | ub w => cases hr

/-- C17: on every reachable dataset, whatever `getTimeSeries` returns can be read without leaving the
buffer, for all integer arguments. -/
theorem C17_reachable_in_bounds (ops : List (DsOp α)) {ds : Dataset α} (hr : DsOp.run Dataset.empty ops = some ds)
    (index start stop : Int) {v : View} (hv : ds.getTimeSeries index start stop = .ok v) :
    ∃ xs, ds.resolve v = .ok xs ∧ (0 ≤ v.length → len xs = v.length) := by
  have h := DsOp.run_readable empty_readable ops hr
  have hnt := C17_throws_iff ds index start stop
  have hgood : ((0 ≤ index ∧ index < ds.itemCount) ∧
        ((start < 0 ∧ stop < 0) ∨ (0 ≤ start ∧ start < stop ∧ stop ≤ ds.itemLength))) := by
    by_contra hc
    obtain ⟨m, hm⟩ := hnt.mpr hc
    rw [hv] at hm
    cases hm
  cases hd : ds.data with
  | none =>
    have := h.unloaded hd
    omega
  | some b =>
    by_cases hl : 0 ≤ ds.itemLength
    · obtain ⟨L, R, hh⟩ := h.holds hd hl
      obtain ⟨i, rfl⟩ := Int.eq_ofNat_of_zero_le hgood.1.1
      have hi : i < R.length := by have := hgood.1.2; rw [hh.itemCount] at this; omega
      have hrow := hh.rows _ (List.getElem_mem hi)
      rcases hgood.2 with ⟨h1, h2⟩ | ⟨h1, h2, h3⟩
      · obtain ⟨v', g1, g2, g3⟩ := C17_whole_row hh i hi start stop h1 h2
        rw [hv] at g1
        cases g1
        exact ⟨_, g3, fun _ => by rw [g2]; simp [len, hrow]⟩
      · obtain ⟨s, rfl⟩ := Int.eq_ofNat_of_zero_le h1
        obtain ⟨e, rfl⟩ := Int.eq_ofNat_of_zero_le (show 0 ≤ stop by omega)
        rw [hh.itemLength] at h3
        obtain ⟨v', g1, g2, g3⟩ := C17_window_values hh i s e hi (by omega) (by omega)
        rw [hv] at g1
        cases g1
        refine ⟨_, g3, fun _ => ?_⟩
        rw [g2]
        simp only [len, List.length_take, List.length_drop, hrow]
        omega
    · rcases hgood.2 with ⟨h1, h2⟩ | ⟨h1, h2, h3⟩
      · unfold Dataset.getTimeSeries at hv
        rw [if_neg (by omega), if_pos ⟨h1, h2⟩] at hv
        cases hv
        refine ⟨[], ?_, ?_⟩
        · unfold Dataset.resolve
          rw [if_neg (by simp), if_pos (by simp; omega)]
        · intro h0
          simp only [View.length] at h0
          omega
      · omega

/-- A reachable dataset for C17: load a file and halve its length. -/
example : ∃ ops ds, DsOp.run (Dataset.empty : Dataset (F Rounding.exact)) ops = some ds ∧ ds.itemCount = 1 ∧
    ds.itemLength = 2 := by
  refine ⟨[.load (fun _ => .val (F.fin 7)) (some ['1', ',', '2', ',', '3']) "f" 0 0 [','], .paa (F.fin 0) 2], _,
    rfl, rfl, rfl⟩

end Onex
