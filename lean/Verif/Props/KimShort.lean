import Verif.Props.Ucr
import Verif.Proofs.KimShort

/-!
# C50: exactly for which lengths Kim's bound is a lower bound
-/

namespace Onex

open Spec DataT

/-- C50, Kim's bound, exactly when it is true: for a given number of values, at least two, it is a lower bound for all windows and queries
that vary if and only if there are six or more. With five, four and three it counts a value twice, with two it reads past the end of the query.
(One value does not vary.) -/
theorem C50_kim_exactly (m : ℕ) (hm : 2 ≤ m) :
    (∀ (r p : ℕ) (x query : List ℝ) (L : ℝ) (bsf : Ex), p + m ≤ x.length → Varies (windowAt x p m) → query.length = m → Varies query →
      IsLeast (warpCosts r (znorm (windowAt x p m)) (znorm query)) L →
      ∃ v, lbKim (fins x) (fins (znorm query)) p m (F.fin (average (windowAt x p m))) (F.fin (stdev (windowAt x p m))) bsf = .ok (F.fin v) ∧
        v ≤ L) ↔ 6 ≤ m := by
  constructor
  · intro h
    by_contra h6
    obtain rfl | rfl | rfl | rfl : m = 2 ∨ m = 3 ∨ m = 4 ∨ m = 5 := by omega
    · obtain ⟨L, hL⟩ : ∃ L, IsLeast (warpCosts 0 (znorm [0, 1]) (znorm [0, 1])) L :=
        ⟨_, dp_isLeast (r := 0) (znorm [0, 1]) (znorm [0, 1]) (by unfold inB; simp [znorm_length])⟩
      have hv : Varies [0, 1] := ⟨0, by simp, 1, by simp, by norm_num⟩
      obtain ⟨v, e, -⟩ := h 0 0 [0, 1] [0, 1] L F.pinf (by simp) hv rfl hv hL
      exact kim2 (by simp [znorm_length]) v (by simp [znorm_length]) (holds_window (m := 2) rfl hv (at_window (by simp))) e
    · have hv : Varies [0, 0, 1] := ⟨0, by simp, 1, by simp, by norm_num⟩
      obtain ⟨v, e, hle⟩ := h 0 0 [0, 0, 1] [1, 0, 1] 3 F.pinf (by simp) hv rfl ⟨0, by simp, 1, by simp, by norm_num⟩ kim_least3
      have := kim3 (holds_window (m := 3) rfl hv (at_window (x := [0, 0, 1]) (p := 0) (by simp)))
      have e' := e.symm.trans this
      rw [Res.ok.injEq, F.fin.injEq] at e'
      norm_num [e'] at hle
    · have hv : Varies [-2, -1, 2, -1] := ⟨-2, by simp, -1, by simp, by norm_num⟩
      obtain ⟨v, e, hle⟩ := h 0 0 [-2, -1, 2, -1] [0, 0, 1, 1] (8 / 3) F.pinf (by simp) hv rfl ⟨0, by simp, 1, by simp, by norm_num⟩ kim_least4
      have := kim4 (holds_window (m := 4) rfl hv (at_window (x := [-2, -1, 2, -1]) (p := 0) (by simp)))
      have e' := e.symm.trans this
      rw [Res.ok.injEq, F.fin.injEq] at e'
      norm_num [e'] at hle
    · obtain ⟨v, e, hle⟩ := h 0 0 [0, 0, 0, -1, -2] [0, 0, 1, 0, 0] (25 / 4) (F.fin (15 / 2)) (by simp) varies_w1 rfl varies_q5 least1
      have e' := e.symm.trans C50_kim_five_counterexample.1
      rw [Res.ok.injEq, F.fin.injEq] at e'
      norm_num [e'] at hle
  · intro h6 r p x query L bsf hp hv hq _ hL
    exact C50_kim_partial h6 hp hv (by rw [znorm_length, hq]) hL bsf

end Onex
