import Verif.Props.Candidate

/-!
# C45: exactly which distances the candidate order sorts
-/

namespace Onex
namespace Spec

variable {ρ : Rounding}

/-- The order takes two distances for equal: their computed difference is less than `EPS`. -/
def Close (ρ : Rounding) (x y : ℝ) : Prop := |ρ.f (x - y)| < 1 / 10 ^ 12

theorem close_refl (x : ℝ) : Close ρ x x := by
  unfold Close
  rw [sub_self, ρ.zero, abs_zero]
  norm_num

theorem close_symm {x y : ℝ} (h : Close ρ x y) : Close ρ y x := by
  unfold Close at h ⊢
  rwa [← neg_sub, ρ.odd, abs_neg]

/-- What lies between two close distances is close to both. -/
theorem close_mid {x y z : ℝ} (h : Close ρ x z) (h1 : x ≤ y) (h2 : y ≤ z) : Close ρ x y ∧ Close ρ y z := by
  have h' := close_symm h
  unfold Close at h'
  rw [abs_of_nonneg (ρ.nonneg (by linarith))] at h'
  constructor
  · refine close_symm ?_
    unfold Close
    rw [abs_of_nonneg (ρ.nonneg (by linarith))]
    exact lt_of_le_of_lt (ρ.mono (by linarith)) h'
  · refine close_symm ?_
    unfold Close
    rw [abs_of_nonneg (ρ.nonneg (by linarith))]
    exact lt_of_le_of_lt (ρ.mono (by linarith)) h'

/-- The order between the positions of two windows. -/
def Earlier (x y : View) : Prop :=
  x.index < y.index ∨ (x.index = y.index ∧ (x.start < y.start ∨ (x.start = y.start ∧ x.length < y.length)))

theorem lt_close {x y : Cand (F ρ)} {dx dy : ℝ} (ex : x.dist = F.fin dx) (ey : y.dist = F.fin dy) :
    (Close ρ dx dy → ((x.lt y = true) ↔ Earlier x.ts y.ts)) ∧ (¬ Close ρ dx dy → ((x.lt y = true) ↔ dx < dy)) := by
  have habs : DataT.abs (F.fin (ρ.f (dx - dy)) : F ρ) = F.fin |ρ.f (dx - dy)| := rfl
  have heps : (DataT.eps : F ρ) = F.fin (1 / 10 ^ 12) := rfl
  rw [Cand.lt_eq, ex, ey, sub_fin, habs, heps]
  simp only [lt_fin]
  unfold Close Earlier
  exact ⟨fun h => by rw [if_pos h], fun h => by rw [if_neg h]⟩

/-- C45: exactly when it is true. Candidates with distances in `D` are sorted if and only if being closer than `EPS` is transitive among the
distances in `D`; under every rounding. -/
theorem C45_exactly (D : Set ℝ) :
    StrictWeakOn (fun x y : Cand (F ρ) => x.lt y = true) (fun x => ∃ d ∈ D, x.dist = F.fin d) ↔
    ∀ a ∈ D, ∀ b ∈ D, ∀ c ∈ D, |ρ.f (a - b)| < 1 / 10 ^ 12 → |ρ.f (b - c)| < 1 / 10 ^ 12 → |ρ.f (a - c)| < 1 / 10 ^ 12 := by
  constructor
  · intro h a ha b hb c hc hab hbc
    by_contra hac
    have main : ∀ a ∈ D, ∀ c ∈ D, Close ρ a b → Close ρ b c → ¬ Close ρ a c → a < c → False := by
      intro a ha c hc hab hbc hac hlt
      let x : Cand (F ρ) := ⟨⟨0, 0, 2, 0, 2⟩, F.fin a⟩
      let y : Cand (F ρ) := ⟨⟨0, 0, 1, 0, 2⟩, F.fin b⟩
      let z : Cand (F ρ) := ⟨⟨0, 0, 0, 0, 2⟩, F.fin c⟩
      have hzy : z.lt y = true := ((lt_close (x := z) (y := y) rfl rfl).1 (close_symm hbc)).mpr (.inl (by simp [y, z]))
      have hyx : y.lt x = true := ((lt_close (x := y) (y := x) rfl rfl).1 (close_symm hab)).mpr (.inl (by simp [x, y]))
      have hxz : x.lt z = true := ((lt_close (x := x) (y := z) rfl rfl).2 hac).mpr hlt
      have hzx := h.trans z y x ⟨c, hc, rfl⟩ ⟨b, hb, rfl⟩ ⟨a, ha, rfl⟩ hzy hyx
      exact h.asymm x z ⟨a, ha, rfl⟩ ⟨c, hc, rfl⟩ hxz hzx
    rcases lt_trichotomy a c with h1 | h1 | h1
    · exact main a ha c hc hab hbc hac h1
    · subst h1
      exact hac (close_refl a)
    · exact main c hc a ha (close_symm hbc) (close_symm hab) (fun h => hac (close_symm h)) h1
  · intro htr
    have tr : ∀ {a b c : ℝ}, a ∈ D → b ∈ D → c ∈ D → Close ρ a b → Close ρ b c → Close ρ a c :=
      fun ha hb hc h1 h2 => htr _ ha _ hb _ hc h1 h2
    refine ⟨fun x _ => by rw [(C45_asymmetric_partial x x).1]; simp, fun x y _ _ h => by rw [(C45_asymmetric_partial x y).2 h]; simp, ?_, ?_⟩
    · rintro x y z ⟨dx, hx, ex⟩ ⟨dy, hy, ey⟩ ⟨dz, hz, ez⟩ h1 h2
      by_cases c1 : Close ρ dx dy
      · by_cases c2 : Close ρ dy dz
        · rw [(lt_close ex ey).1 c1] at h1
          rw [(lt_close ey ez).1 c2] at h2
          rw [(lt_close ex ez).1 (tr hx hy hz c1 c2)]
          unfold Earlier at *
          omega
        · rw [(lt_close ey ez).2 c2] at h2
          have c3 : ¬ Close ρ dx dz := fun c => c2 (tr hy hx hz (close_symm c1) c)
          rw [(lt_close ex ez).2 c3]
          by_contra hle
          rw [not_lt] at hle
          exact c2 (close_mid (close_symm c1) h2.le hle).1
      · rw [(lt_close ex ey).2 c1] at h1
        by_cases c2 : Close ρ dy dz
        · have c3 : ¬ Close ρ dx dz := fun c => c1 (tr hx hz hy c (close_symm c2))
          rw [(lt_close ex ez).2 c3]
          by_contra hle
          rw [not_lt] at hle
          exact c1 (close_mid (close_symm c2) hle h1.le).2
        · rw [(lt_close ey ez).2 c2] at h2
          have c3 : ¬ Close ρ dx dz := fun c => c1 (close_mid c h1.le h2.le).1
          rw [(lt_close ex ez).2 c3]
          exact h1.trans h2
    · rintro x y z ⟨dx, hx, ex⟩ ⟨dy, hy, ey⟩ ⟨dz, hz, ez⟩ h1 h2 h3 h4
      have inc : ∀ {x y : Cand (F ρ)} {dx dy : ℝ}, x.dist = F.fin dx → y.dist = F.fin dy → ¬ x.lt y = true → ¬ y.lt x = true →
          Close ρ dx dy ∧ ¬ Earlier x.ts y.ts ∧ ¬ Earlier y.ts x.ts := by
        intro x y dx dy ex ey h1 h2
        by_cases c : Close ρ dx dy
        · rw [(lt_close ex ey).1 c] at h1
          rw [(lt_close ey ex).1 (close_symm c)] at h2
          exact ⟨c, h1, h2⟩
        · rw [(lt_close ex ey).2 c] at h1
          rw [(lt_close ey ex).2 fun c' => c (close_symm c')] at h2
          have : dx = dy := le_antisymm (not_lt.mp h2) (not_lt.mp h1)
          subst this
          exact absurd (close_refl _) c
      obtain ⟨c1, e1, e2⟩ := inc ex ey h1 h2
      obtain ⟨c2, e3, e4⟩ := inc ey ez h3 h4
      have c3 := tr hx hy hz c1 c2
      rw [(lt_close ex ez).1 c3, (lt_close ez ex).1 (close_symm c3)]
      unfold Earlier at *
      omega

/-- Distances closer than `EPS` that are sorted nevertheless: 0 and 1e-13, far from 1; the earlier theorem does not cover them. -/
example : StrictWeakOn (fun x y : Cand (F Rounding.exact) => x.lt y = true) (fun x => ∃ d ∈ ({0, 1 / 10 ^ 13, 1} : Set ℝ), x.dist = F.fin d) ∧
    ¬ Separated Rounding.exact {0, 1 / 10 ^ 13, 1} := by
  constructor
  · rw [C45_exactly]
    rintro a (rfl | rfl | rfl) b (rfl | rfl | rfl) c (rfl | rfl | rfl) <;> norm_num [Rounding.exact_f, abs_of_pos, abs_of_neg]
  · intro h
    rcases h 0 (by simp) (1 / 10 ^ 13) (by simp) with h | h
    · norm_num at h
    · rw [Rounding.exact_f, abs_of_neg (by norm_num)] at h
      norm_num at h

end Spec
end Onex
