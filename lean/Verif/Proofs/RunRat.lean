import Verif.Proofs.Transfer
import Verif.Proofs.UcrBounds
import Mathlib.Data.Rat.Cast.Order
import Mathlib.Data.Rat.Cast.CharZero

/-!
# Running the model on rational numbers

`Run` has the rationals and the special values, and computes with them; a result that is not rational (a root) is kept as the
value of `F Rounding.exact` it stands for. So every run of the model over `Run` is a run over `F Rounding.exact`
(`RR.calculateWith`, `emb_logical`), and one that meets rationals only can be carried out by the kernel.
-/

namespace Onex

open DataT

/-- Numbers to run the model with. -/
inductive Run : Type where
  | q (x : ℚ)
  | nan
  | ninf
  | pinf
  | e (y : Ex)

namespace Run

/-- What they stand for. -/
noncomputable def emb : Run → Ex
  | .q x => F.fin (x : ℝ)
  | .nan => F.nan
  | .ninf => F.ninf
  | .pinf => F.pinf
  | .e y => y

/-- The root of a small square, if it is one. -/
def natRoot (n : ℕ) : ℕ := ((List.range 100).find? fun s => s * s == n).getD 0

def ratRoot (x : ℚ) : Option ℚ :=
  let c : ℚ := (natRoot x.num.toNat : ℚ) / (natRoot x.den : ℚ)
  if c * c = x ∧ 0 ≤ c then some c else none

noncomputable def add : Run → Run → Run
  | .q x, .q y => .q (x + y)
  | .nan, _ => .nan
  | _, .nan => .nan
  | a, b => .e (DataT.add a.emb b.emb)

noncomputable def sub : Run → Run → Run
  | .q x, .q y => .q (x - y)
  | .nan, _ => .nan
  | _, .nan => .nan
  | a, b => .e (DataT.sub a.emb b.emb)

noncomputable def mul : Run → Run → Run
  | .q x, .q y => .q (x * y)
  | .nan, _ => .nan
  | _, .nan => .nan
  | a, b => .e (DataT.mul a.emb b.emb)

noncomputable def div : Run → Run → Run
  | .q x, .q y => if y = 0 then (if 0 < x then .pinf else if x < 0 then .ninf else .nan) else .q (x / y)
  | .nan, _ => .nan
  | _, .nan => .nan
  | a, b => .e (DataT.div a.emb b.emb)

noncomputable def sqrt : Run → Run
  | .q x => if x < 0 then .nan else
    match ratRoot x with
    | some c => .q c
    | none => .e (DataT.sqrt (F.fin (x : ℝ) : Ex))
  | .nan => .nan
  | a => .e (DataT.sqrt a.emb)

noncomputable def lt : Run → Run → Bool
  | .q x, .q y => decide (x < y)
  | .nan, _ => false
  | _, .nan => false
  | a, b => DataT.lt a.emb b.emb

noncomputable def le : Run → Run → Bool
  | .q x, .q y => decide (x ≤ y)
  | .nan, _ => false
  | _, .nan => false
  | a, b => DataT.le a.emb b.emb

noncomputable instance : DataT Run where
  ofInt z := .q z
  inf := .pinf
  ninf := .ninf
  eps := .q (1 / 10 ^ 12)
  add := add
  sub := sub
  mul := mul
  div := div
  sqrt := sqrt
  abs a := .e (DataT.abs a.emb)
  lt := lt
  le := le
  eq a b := DataT.eq a.emb b.emb
  floorInt a := DataT.floorInt a.emb

end Run

theorem ex_add_nan (x : Ex) : DataT.add x F.nan = F.nan := by cases x <;> rfl
theorem ex_nan_add (x : Ex) : DataT.add F.nan x = F.nan := by cases x <;> rfl
theorem ex_sub_nan (x : Ex) : DataT.sub x F.nan = F.nan := by cases x <;> rfl
theorem ex_nan_sub (x : Ex) : DataT.sub F.nan x = F.nan := by cases x <;> rfl
theorem ex_mul_nan (x : Ex) : DataT.mul x F.nan = F.nan := by cases x <;> rfl
theorem ex_nan_mul (x : Ex) : DataT.mul F.nan x = F.nan := by cases x <;> rfl
theorem ex_div_nan (x : Ex) : DataT.div x F.nan = F.nan := by cases x <;> rfl
theorem ex_nan_div (x : Ex) : DataT.div F.nan x = F.nan := by cases x <;> rfl

theorem ex_le_nan_left (x : Ex) : DataT.le F.nan x = false := by
  rw [Bool.eq_false_iff, Ne, le_iff]; cases x <;> simp [F.Lt, F.Eqv]
theorem ex_le_nan_right (x : Ex) : DataT.le x F.nan = false := by
  rw [Bool.eq_false_iff, Ne, le_iff]; cases x <;> simp [F.Lt, F.Eqv]

theorem ratRoot_spec {x c : ℚ} (h : Run.ratRoot x = some c) : c * c = x ∧ 0 ≤ c := by
  unfold Run.ratRoot at h
  dsimp only at h
  split at h
  · rename_i hc
    obtain ⟨rfl⟩ := h
    exact hc
  · cases h

/-- `Run` computes what `F Rounding.exact` does. -/
instance emb_logical : Logical (fun (a : Run) (b : Ex) => a.emb = b) where
  ofInt z := by
    change F.fin ((z : ℚ) : ℝ) = F.fin (z : ℝ)
    rw [Rat.cast_intCast]
  add := by
    rintro a _ b _ rfl rfl
    change (Run.add a b).emb = _
    cases a <;> cases b <;> first | rfl | exact (ex_add_nan _).symm | exact (ex_nan_add _).symm | skip
    change F.fin _ = _
    rw [Rat.cast_add]; rfl
  sub := by
    rintro a _ b _ rfl rfl
    change (Run.sub a b).emb = _
    cases a <;> cases b <;> first | rfl | exact (ex_sub_nan _).symm | exact (ex_nan_sub _).symm | skip
    change F.fin _ = _
    rw [Rat.cast_sub]
    exact (sub_fin _ _).symm
  mul := by
    rintro a _ b _ rfl rfl
    change (Run.mul a b).emb = _
    cases a <;> cases b <;> first | rfl | exact (ex_mul_nan _).symm | exact (ex_nan_mul _).symm | skip
    change F.fin _ = _
    rw [Rat.cast_mul]; rfl
  div := by
    rintro a _ b _ rfl rfl
    change (Run.div a b).emb = _
    cases a <;> cases b <;> first | rfl | exact (ex_div_nan _).symm | exact (ex_nan_div _).symm | skip
    rename_i x y
    unfold Run.div
    dsimp only
    change _ = F.div (F.fin (x : ℝ)) (F.fin (y : ℝ))
    unfold F.div F.infSign
    dsimp only
    by_cases hy : y = 0
    · rw [if_pos hy, if_pos (show (y : ℝ) = 0 by rw [hy]; exact Rat.cast_zero)]
      by_cases h1 : 0 < x
      · rw [if_pos h1, if_pos (by exact_mod_cast h1)]; rfl
      · rw [if_neg h1, if_neg (show ¬ (0 : ℝ) < x by exact_mod_cast h1)]
        by_cases h2 : x < 0
        · rw [if_pos h2, if_pos (by exact_mod_cast h2)]; rfl
        · rw [if_neg h2, if_neg (by exact_mod_cast h2)]; rfl
    · rw [if_neg hy, if_neg (by exact_mod_cast hy)]
      change F.fin _ = _
      rw [Rat.cast_div]; rfl
  sqrt := by
    rintro a _ rfl
    change (Run.sqrt a).emb = _
    cases a <;> try rfl
    rename_i x
    unfold Run.sqrt
    dsimp only
    change _ = F.sqrt (F.fin (x : ℝ))
    unfold F.sqrt
    dsimp only
    by_cases hx : x < 0
    · rw [if_pos hx, if_neg (by exact_mod_cast not_le.mpr hx)]; rfl
    · rw [if_neg hx, if_pos (by exact_mod_cast not_lt.mp hx)]
      cases h : Run.ratRoot x with
      | none =>
        change DataT.sqrt (F.fin (x : ℝ) : Ex) = _
        rw [sqrt_fin _ (by exact_mod_cast not_lt.mp hx)]
      | some c =>
        change F.fin (c : ℝ) = _
        obtain ⟨h1, h2⟩ := ratRoot_spec h
        congr 1
        rw [Rounding.exact_f, eq_comm, Real.sqrt_eq_iff_mul_self_eq (by exact_mod_cast not_lt.mp hx) (by exact_mod_cast h2)]
        exact_mod_cast h1.symm
  lt := by
    rintro a _ b _ rfl rfl
    change Run.lt a b = _
    cases a <;> cases b <;> first | rfl | exact (lt_nan_left _).symm | exact (lt_nan_right _).symm | skip
    rename_i x y
    unfold Run.lt
    dsimp only
    change _ = DataT.lt (F.fin (x : ℝ) : Ex) (F.fin (y : ℝ))
    rw [Bool.eq_iff_iff, lt_fin, decide_eq_true_eq]
    exact_mod_cast Iff.rfl
  le := by
    rintro a _ b _ rfl rfl
    change Run.le a b = _
    cases a <;> cases b <;> first | rfl | exact (ex_le_nan_left _).symm | exact (ex_le_nan_right _).symm | skip
    rename_i x y
    unfold Run.le
    dsimp only
    change _ = DataT.le (F.fin (x : ℝ) : Ex) (F.fin (y : ℝ))
    rw [Bool.eq_iff_iff, le_fin, decide_eq_true_eq]
    exact_mod_cast Iff.rfl

/-- The rationals as numbers to run with. -/
def runs (l : List ℚ) : List Run := l.map Run.q

theorem forall₂_runs (l : List ℚ) : List.Forall₂ (fun (a : Run) (b : Ex) => a.emb = b) (runs l) (fins (l.map ((↑) : ℚ → ℝ))) := by
  induction l with
  | nil => exact .nil
  | cons x l ih => exact .cons rfl ih

/-- A run of the search on rationals that stops with the given answer. -/
noncomputable def ranTo (loc : Int) (v : ℚ) (n : Int) : Res (Int × Run × Int) → Bool
  | .ok (l, .q x, k) => decide (l = loc) && decide (x = v) && decide (k = n)
  | _ => false

/-- It is a run of the search in exact arithmetic. -/
theorem calculateWith_ran {epoch : Int} {order : List Int} {d f : List ℚ} {m r : Int} {loc : Int} {v : ℚ} {n : Int}
    (h : ranTo loc v n (calculateWith epoch (.q 77) order (runs d) (runs f) m r) = true) :
    calculateWith epoch (F.fin ((77 : ℚ) : ℝ) : Ex) order (fins (d.map ((↑) : ℚ → ℝ))) (fins (f.map ((↑) : ℚ → ℝ))) m r = .ok (loc, F.fin (v : ℝ), n) := by
  have key := RR.calculateWith epoch (R := fun (a : Run) (b : Ex) => a.emb = b) (junk := .q 77) (junk' := F.fin ((77 : ℚ) : ℝ)) rfl order (forall₂_runs d) (forall₂_runs f) m r
  generalize calculateWith epoch (Run.q 77) order (runs d) (runs f) m r = x at h key
  generalize calculateWith epoch (F.fin ((77 : ℚ) : ℝ) : Ex) order _ _ m r = y at key ⊢
  cases key with
  | throw => cases h
  | ub => cases h
  | @ok a b hab =>
    obtain ⟨l, x, k⟩ := a
    obtain ⟨l', x', k'⟩ := b
    obtain ⟨h1, h2, h3⟩ := hab
    dsimp only at h1 h2 h3
    cases x <;> first | (simp [ranTo] at h; done) | skip
    simp only [ranTo, Bool.and_eq_true, decide_eq_true_eq] at h
    obtain ⟨⟨rfl, rfl⟩, rfl⟩ := h
    subst h1 h2 h3
    rfl

end Onex
