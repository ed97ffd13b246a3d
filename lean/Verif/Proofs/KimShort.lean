import Verif.Proofs.UcrEdge

/-!
# Kim's bound for two, three and four values
-/

namespace Onex

open Spec DataT

/-- Half the root of two. -/
noncomputable def hrt : ℝ := Real.sqrt (1 / 2)

theorem hrt_sq : hrt ^ 2 = 1 / 2 := Real.sq_sqrt (by norm_num)

theorem hrt_pos : 0 < hrt := Real.sqrt_pos.mpr (by norm_num)

theorem zkw3 : znorm [0, 0, 1] = [-hrt, -hrt, 2 * hrt] := by
  have h := hrt_sq
  have h0 := hrt_pos.ne'
  refine znorm_of (a := 1 / 3) (d := 2 * hrt / 3) (by norm_num [average]) ?_ (by have := hrt_pos; positivity) ?_
  · norm_num
    nlinarith
  · simp only [List.map_cons, List.map_nil, List.cons.injEq, and_true]
    refine ⟨?_, ?_, ?_⟩ <;> field_simp <;> nlinarith

theorem zkq3 : znorm [1, 0, 1] = [hrt, -(2 * hrt), hrt] := by
  have h := hrt_sq
  have h0 := hrt_pos.ne'
  refine znorm_of (a := 2 / 3) (d := 2 * hrt / 3) (by norm_num [average]) ?_ (by have := hrt_pos; positivity) ?_
  · norm_num
    nlinarith
  · simp only [List.map_cons, List.map_nil, List.cons.injEq, and_true]
    refine ⟨?_, ?_, ?_⟩ <;> field_simp <;> nlinarith

theorem kim_least3 : IsLeast (warpCosts 0 (znorm [0, 0, 1]) (znorm [1, 0, 1])) 3 := by
  rw [zkw3, zkq3]
  have h := dp_isLeast (r := 0) [-hrt, -hrt, 2 * hrt] [hrt, -(2 * hrt), hrt] (by unfold inB; simp)
  convert h using 1
  have := hrt_sq
  simp [dp, ecost, inB, List.getD]
  nlinarith

theorem ge_pinf (x : ℝ) : ge (F.fin x : Ex) F.pinf = false := by
  rw [Bool.eq_false_iff]
  intro h
  rw [ge, le_iff] at h
  exact h.elim (fun h => h.elim) fun h => h.elim

theorem kim3 {t : List Ex} {j : Int} {μ σ : Ex} (h : Holds t j μ σ (znorm [0, 0, 1])) :
    lbKim t (fins (znorm [1, 0, 1])) j (3 : ℕ) μ σ F.pinf = .ok (F.fin (9 / 2)) := by
  unfold Holds at h
  rw [zkw3] at h
  rw [zkq3]
  have g : ∀ (z : Int) (k : ℕ) (y : ℝ), z = j + k → k < 3 → [-hrt, -hrt, 2 * hrt].getD k 0 = y → zAt t μ σ z = .ok (F.fin y) := by
    intro z k y e hk hy
    rw [e, h k hk, hy]
  unfold lbKim
  rw [g j 0 _ (by omega) (by omega) rfl, g (((3 : ℕ) : Int) - 1 + j) 2 _ (by omega) (by omega) rfl,
    g (j + 1) 1 _ (by omega) (by omega) rfl, g (((3 : ℕ) : Int) - 2 + j) 1 _ (by omega) (by omega) rfl,
    g (j + 2) 2 _ (by omega) (by omega) rfl, g (((3 : ℕ) : Int) - 3 + j) 0 _ (by omega) (by omega) rfl]
  have gq : ∀ (z : Int) (k : ℕ) (y : ℝ), z = k → k < 3 → [hrt, -(2 * hrt), hrt].getD k 0 = y →
      vget (fins [hrt, -(2 * hrt), hrt] : List Ex) z = .ok (F.fin y) := by
    intro z k y e hk hy
    rw [e, vget_fins (by simpa using hk), hy]
  rw [gq 0 0 _ (by omega) (by omega) rfl, gq (((3 : ℕ) : Int) - 1) 2 _ (by omega) (by omega) rfl,
    gq 1 1 _ (by omega) (by omega) rfl, gq (((3 : ℕ) : Int) - 2) 1 _ (by omega) (by omega) rfl,
    gq 2 2 _ (by omega) (by omega) rfl, gq (((3 : ℕ) : Int) - 3) 0 _ (by omega) (by omega) rfl]
  have hp := ge_pinf
  have e1 : (-hrt - hrt) ^ 2 = 2 := by ring_nf; rw [hrt_sq]; norm_num
  have e2 : (2 * hrt - hrt) ^ 2 = 1 / 2 := by ring_nf; rw [hrt_sq]
  have e3 : (-hrt - -(2 * hrt)) ^ 2 = 1 / 2 := by ring_nf; rw [hrt_sq]
  have e4 : (2 * hrt - -(2 * hrt)) ^ 2 = 8 := by ring_nf; rw [hrt_sq]; norm_num
  simp only [List.getD_cons_zero, List.getD_cons_succ, Res.bind_ok, distM_exact, add_fin, Rounding.exact_f, minM_fin, Res.pure_eq, hp, e1, e2, e3, e4]
  norm_num

theorem zkw4 : znorm [-2, -1, 2, -1] = [-1, -1 / 3, 5 / 3, -1 / 3] :=
  znorm_of (a := -1 / 2) (d := 3 / 2) (by norm_num [average]) (by norm_num) (by norm_num) (by norm_num)

theorem zkq4 : znorm [0, 0, 1, 1] = [-1, -1, 1, 1] :=
  znorm_of (a := 1 / 2) (d := 1 / 2) (by norm_num [average]) (by norm_num) (by norm_num) (by norm_num)

theorem kim_least4 : IsLeast (warpCosts 0 (znorm [-2, -1, 2, -1]) (znorm [0, 0, 1, 1])) (8 / 3) := by
  rw [zkw4, zkq4]
  have h := dp_isLeast (r := 0) [-1, -1 / 3, 5 / 3, -1 / 3] [-1, -1, 1, 1] (by unfold inB; simp)
  convert h using 1
  norm_num [dp, ecost, inB, List.getD]

theorem kim4 {t : List Ex} {j : Int} {μ σ : Ex} (h : Holds t j μ σ (znorm [-2, -1, 2, -1])) :
    lbKim t (fins (znorm [0, 0, 1, 1])) j (4 : ℕ) μ σ F.pinf = .ok (F.fin (28 / 9)) := by
  unfold Holds at h
  rw [zkw4] at h
  rw [zkq4]
  have g : ∀ (z : Int) (k : ℕ) (y : ℝ), z = j + k → k < 4 → [-1, -1 / 3, 5 / 3, -1 / 3].getD k 0 = y → zAt t μ σ z = .ok (F.fin y) := by
    intro z k y e hk hy
    rw [e, h k hk, hy]
  unfold lbKim
  rw [g j 0 (-1) (by omega) (by omega) rfl, g (((4 : ℕ) : Int) - 1 + j) 3 (-1 / 3) (by omega) (by omega) rfl,
    g (j + 1) 1 (-1 / 3) (by omega) (by omega) rfl, g (((4 : ℕ) : Int) - 2 + j) 2 (5 / 3) (by omega) (by omega) rfl,
    g (j + 2) 2 (5 / 3) (by omega) (by omega) rfl, g (((4 : ℕ) : Int) - 3 + j) 1 (-1 / 3) (by omega) (by omega) rfl]
  have gq : ∀ (z : Int) (k : ℕ) (y : ℝ), z = k → k < 4 → [-1, -1, 1, 1].getD k 0 = y →
      vget (fins [-1, -1, 1, 1] : List Ex) z = .ok (F.fin y) := by
    intro z k y e hk hy
    rw [e, vget_fins (by simpa using hk), hy]
  rw [gq 0 0 (-1) (by omega) (by omega) rfl, gq (((4 : ℕ) : Int) - 1) 3 1 (by omega) (by omega) rfl,
    gq 1 1 (-1) (by omega) (by omega) rfl, gq (((4 : ℕ) : Int) - 2) 2 1 (by omega) (by omega) rfl,
    gq 2 2 1 (by omega) (by omega) rfl, gq (((4 : ℕ) : Int) - 3) 1 (-1) (by omega) (by omega) rfl]
  have hp := ge_pinf
  simp only [Res.bind_ok, distM_exact, add_fin, Rounding.exact_f, minM_fin, Res.pure_eq, hp]
  norm_num

/-- With two values the function reads a third one of the query. -/
theorem kim2 {t : List Ex} {j : Int} {μ σ : Ex} {q : List ℝ} (hq : q.length = 2) (v : ℝ) {z : List ℝ} (hz : z.length = 2) (h : Holds t j μ σ z) :
    lbKim t (fins q) j (2 : ℕ) μ σ F.pinf ≠ .ok (F.fin v) := by
  intro e
  unfold Holds at h
  have h0 := h 0 (by omega)
  have h1 := h 1 (by omega)
  obtain ⟨a, b, rfl⟩ := List.length_eq_two.mp hq
  obtain ⟨c, d, rfl⟩ := List.length_eq_two.mp hz
  have hp := ge_pinf
  have q0 : vget (fins [a, b] : List Ex) 0 = .ok (F.fin a) := rfl
  have q1 : vget (fins [a, b] : List Ex) 1 = .ok (F.fin b) := rfl
  have q2 : vget (fins [a, b] : List Ex) 2 = .ub "read out of bounds" := rfl
  simp only [Nat.cast_zero, add_zero, Nat.cast_one, List.getD_cons_zero, List.getD_cons_succ] at h0 h1
  unfold lbKim at e
  have i1 : 1 + j = j + 1 := by omega
  have i2 : 0 + j = j := by omega
  have i3 : ((2 : ℕ) : Int) - 1 = 1 := rfl
  have i4 : ((2 : ℕ) : Int) - 2 = 0 := rfl
  simp only [i3, i4, i1, i2, h0, h1, q0, q1, q2, Res.bind_ok, distM_exact, add_fin, Rounding.exact_f, minM_fin, hp] at e
  simp at e
  cases hx : zAt t μ σ (j + 2) <;> rw [hx] at e <;> simp at e

end Onex
