import Verif.Model.Candidate
import Verif.Proofs.Flt
import Mathlib.Tactic.NormNum
import Mathlib.Tactic.Linarith

/-!
# Property of the candidate order: C45
-/

namespace Onex

variable {ρ : Rounding}

namespace Spec

/-- A strict weak order on the elements satisfying `P` (what `std::sort` requires). -/
structure StrictWeakOn {β : Type} (lt : β → β → Prop) (P : β → Prop) : Prop where
  irrefl : ∀ x, P x → ¬ lt x x
  asymm : ∀ x y, P x → P y → lt x y → ¬ lt y x
  trans : ∀ x y z, P x → P y → P z → lt x y → lt y z → lt x z
  incomp : ∀ x y z, P x → P y → P z → ¬ lt x y → ¬ lt y x → ¬ lt y z → ¬ lt z y → ¬ lt x z ∧ ¬ lt z x

/-- Any two distances in `D` are equal or their computed difference is at least `EPS`. -/
def Separated (ρ : Rounding) (D : Set ℝ) : Prop :=
  ∀ x ∈ D, ∀ y ∈ D, x = y ∨ (1 / 10 ^ 12 : ℝ) ≤ |ρ.f (x - y)|

end Spec

open Spec

theorem abs_sub_comm_F (x y : F ρ) : DataT.abs (DataT.sub x y) = DataT.abs (DataT.sub y x) := by
  rcases x with _ | _ | x | _ <;> rcases y with _ | _ | y | _ <;> try rfl
  rw [sub_fin, sub_fin]
  change F.fin |_| = F.fin |_|
  rw [← neg_sub, ρ.odd, abs_neg]

theorem lt_asymm_dist {x y : F ρ} (h : DataT.lt x y = true) : DataT.lt y x = false := by
  rw [lt_iff] at h
  rw [lt_eq_false]
  rcases x with _ | _ | x | _ <;> rcases y with _ | _ | y | _ <;> simp only [F.Lt] at h ⊢ <;>
    first | exact not_false | exact h.elim | exact not_lt.mpr h.le

/-- The order on positions used between candidates at equal distance. -/
theorem Cand.lt_eq (x y : Cand (F ρ)) : (x.lt y = true) ↔
    if DataT.lt (DataT.abs (DataT.sub x.dist y.dist)) DataT.eps = true then
      x.ts.index < y.ts.index ∨ (x.ts.index = y.ts.index ∧ (x.ts.start < y.ts.start ∨
        (x.ts.start = y.ts.start ∧ x.ts.length < y.ts.length)))
    else DataT.lt x.dist y.dist = true := by
  unfold Cand.lt
  by_cases h : DataT.lt (DataT.abs (DataT.sub x.dist y.dist)) DataT.eps = true
  · rw [if_pos h, if_pos h]
    split
    · split
      · rw [decide_eq_true_iff]
        omega
      · rw [decide_eq_true_iff]
        omega
    · rw [decide_eq_true_iff]
      omega
  · rw [if_neg h, if_neg h]

/-- C45, for all candidates whatever their distances (NaN and infinities included), every rounding: the order is irreflexive and
asymmetric. -/
theorem C45_asymmetric_partial (x y : Cand (F ρ)) : x.lt x = false ∧ (x.lt y = true → y.lt x = false) := by
  constructor
  · rw [Bool.eq_false_iff]
    intro h
    rw [Cand.lt_eq] at h
    split at h
    · omega
    · rw [lt_irrefl_F] at h
      simp at h
  · intro h
    rw [Bool.eq_false_iff]
    intro h'
    rw [Cand.lt_eq] at h h'
    rw [abs_sub_comm_F] at h'
    split at h
    · rename_i hc
      rw [if_pos hc] at h'
      omega
    · rename_i hc
      rw [if_neg hc, lt_asymm_dist h] at h'
      simp at h'

/-- C45, where it holds: among candidates whose distances are finite and pairwise equal or at least `EPS` apart, the order is
a strict weak order. -/
theorem C45_separated_partial (D : Set ℝ) (hD : Separated ρ D) :
    StrictWeakOn (fun x y : Cand (F ρ) => x.lt y = true) (fun x => ∃ d ∈ D, x.dist = F.fin d) := by
  have key : ∀ (x y : Cand (F ρ)) (dx dy : ℝ), dx ∈ D → dy ∈ D → x.dist = F.fin dx → y.dist = F.fin dy →
      ((x.lt y = true) ↔ dx < dy ∨ (dx = dy ∧ (x.ts.index < y.ts.index ∨ (x.ts.index = y.ts.index ∧
        (x.ts.start < y.ts.start ∨ (x.ts.start = y.ts.start ∧ x.ts.length < y.ts.length)))))) := by
    intro x y dx dy hx hy ex ey
    rw [Cand.lt_eq, ex, ey, sub_fin]
    have habs : DataT.abs (F.fin (ρ.f (dx - dy)) : F ρ) = F.fin |ρ.f (dx - dy)| := rfl
    have heps : (DataT.eps : F ρ) = F.fin (1 / 10 ^ 12) := rfl
    rw [habs, heps]
    simp only [lt_fin]
    rcases hD dx hx dy hy with e | h
    · subst e
      rw [sub_self, ρ.zero, abs_zero, if_pos (by norm_num)]
      simp
    · rw [if_neg (not_lt.mpr h)]
      constructor
      · exact Or.inl
      · rintro (h' | ⟨e, _⟩)
        · exact h'
        · subst e
          rw [sub_self, ρ.zero, abs_zero] at h
          norm_num at h
  refine ⟨?_, ?_, ?_, ?_⟩
  · intro x _
    simp [(C45_asymmetric_partial x x).1]
  · intro x y _ _ h
    simp [(C45_asymmetric_partial x y).2 h]
  · rintro x y z ⟨dx, hx, ex⟩ ⟨dy, hy, ey⟩ ⟨dz, hz, ez⟩ h1 h2
    rw [key x y dx dy hx hy ex ey] at h1
    rw [key y z dy dz hy hz ey ez] at h2
    rw [key x z dx dz hx hz ex ez]
    rcases h1 with h1 | ⟨rfl, h1⟩
    · rcases h2 with h2 | ⟨rfl, h2⟩
      · exact Or.inl (h1.trans h2)
      · exact Or.inl h1
    · rcases h2 with h2 | ⟨rfl, h2⟩
      · exact Or.inl h2
      · exact Or.inr ⟨rfl, by omega⟩
  · rintro x y z ⟨dx, hx, ex⟩ ⟨dy, hy, ey⟩ ⟨dz, hz, ez⟩ h1 h2 h3 h4
    rw [key x y dx dy hx hy ex ey] at h1
    rw [key y x dy dx hy hx ey ex] at h2
    rw [key y z dy dz hy hz ey ez] at h3
    rw [key z y dz dy hz hy ez ey] at h4
    rw [key x z dx dz hx hz ex ez, key z x dz dx hz hx ez ex]
    push Not at h1 h2 h3 h4
    have e1 : dx = dy := le_antisymm h2.1 h1.1
    have e2 : dy = dz := le_antisymm h4.1 h3.1
    subst e1
    subst e2
    have a1 := h1.2 rfl
    have a2 := h2.2 rfl
    have a3 := h3.2 rfl
    have a4 := h4.2 rfl
    simp only [lt_irrefl, false_or, true_and]
    omega

/-- C45 is false of the code: candidates within `EPS` of each other two by two can form a cycle. -/
theorem C45_counterexample : ∃ x y z : Cand (F Rounding.exact),
    x.dist = F.fin 0 ∧ y.dist = F.fin (6 / 10 ^ 13) ∧ z.dist = F.fin (12 / 10 ^ 13) ∧
      x.lt z = true ∧ z.lt y = true ∧ y.lt x = true := by
  refine ⟨⟨⟨0, 0, 3, 0, 2⟩, F.fin 0⟩, ⟨⟨0, 0, 2, 0, 2⟩, F.fin (6 / 10 ^ 13)⟩, ⟨⟨0, 0, 1, 0, 2⟩, F.fin (12 / 10 ^ 13)⟩,
    rfl, rfl, rfl, ?_, ?_, ?_⟩
  all_goals
    rw [Cand.lt_eq]
    simp only [sub_fin, Rounding.exact_f]
    have habs : ∀ v : ℝ, DataT.abs (F.fin v : F Rounding.exact) = F.fin |v| := fun _ => rfl
    have heps : (DataT.eps : F Rounding.exact) = F.fin (1 / 10 ^ 12) := rfl
    simp only [habs, heps, lt_fin]
  · rw [if_neg (by rw [abs_of_neg (by norm_num)]; norm_num)]
    norm_num
  · rw [if_pos (by rw [abs_of_pos (by norm_num)]; norm_num)]
    norm_num
  · rw [if_pos (by rw [abs_of_pos (by norm_num)]; norm_num)]
    norm_num

/-- With `int abs(int)` the cycle needs no near-ties: distances 0, 0.6 and 1.2. -/
theorem C45_int_abs_counterexample : ∃ x y z : Cand (F Rounding.exact),
    x.dist = F.fin 0 ∧ y.dist = F.fin (6 / 10) ∧ z.dist = F.fin (12 / 10) ∧
      x.ltInt z = .ok true ∧ z.ltInt y = .ok true ∧ y.ltInt x = .ok true := by
  have hf : ∀ (v : ℝ) (k : Int), ⌊|v|⌋ = k → inIntRange k = true →
      DataT.floorInt (DataT.abs (F.fin v : F Rounding.exact)) = some k := by
    intro v k hk hr
    change (if inIntRange ⌊|v|⌋ = true then some ⌊|v|⌋ else none) = _
    rw [hk, if_pos hr]
  refine ⟨⟨⟨0, 0, 3, 0, 2⟩, F.fin 0⟩, ⟨⟨0, 0, 2, 0, 2⟩, F.fin (6 / 10)⟩, ⟨⟨0, 0, 1, 0, 2⟩, F.fin (12 / 10)⟩,
    rfl, rfl, rfl, ?_, ?_, ?_⟩
  · unfold Cand.ltInt
    simp only [sub_fin, Rounding.exact_f]
    rw [hf _ 1 (by rw [Int.floor_eq_iff, abs_of_neg (by norm_num)]; norm_num) (by decide)]
    simp only [one_ne_zero, if_false, Res.ok.injEq, lt_fin]
    norm_num
  · unfold Cand.ltInt
    simp only [sub_fin, Rounding.exact_f]
    rw [hf _ 0 (by rw [Int.floor_eq_iff, abs_of_pos (by norm_num)]; norm_num) (by decide)]
    rfl
  · unfold Cand.ltInt
    simp only [sub_fin, Rounding.exact_f]
    rw [hf _ 0 (by rw [Int.floor_eq_iff, abs_of_pos (by norm_num)]; norm_num) (by decide)]
    rfl

/-- A case for the partial theorems: candidates at distances 0 and 1. -/
example : Separated Rounding.exact {0, 1} ∧
    (⟨⟨0, 0, 3, 0, 2⟩, F.fin 0⟩ : Cand (F Rounding.exact)).lt ⟨⟨0, 0, 3, 1, 3⟩, F.fin 0⟩ = true := by
  constructor
  · intro x hx y hy
    simp only [Set.mem_insert_iff, Set.mem_singleton_iff] at hx hy
    rcases hx with rfl | rfl <;> rcases hy with rfl | rfl <;> simp <;> norm_num
  · rw [Cand.lt_eq]
    simp only [sub_fin, Rounding.exact_f, sub_self]
    have habs : DataT.abs (F.fin 0 : F Rounding.exact) = F.fin |0| := rfl
    have heps : (DataT.eps : F Rounding.exact) = F.fin (1 / 10 ^ 12) := rfl
    rw [habs, heps, if_pos (by rw [lt_fin]; norm_num)]
    norm_num

end Onex
