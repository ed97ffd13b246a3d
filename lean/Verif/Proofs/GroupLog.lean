import Verif.Proofs.GroupGlobal

/-!
# Loops that reach undefined behaviour, and the progress test
-/

namespace Onex

/-- A loop whose steps before `m` are defined and keep `I`, and whose step `m` is undefined. -/
theorem forInt_ub {σ : Type} {body : Int → σ → Res σ} (I : σ → Prop) {m hi : Int} {w : String} (hm : m < hi)
    (hub : ∀ s, I s → body m s = .ub w) : ∀ (k : ℕ) (lo : Int) (s : σ), lo + k = m → I s →
      (∀ j s, lo ≤ j → j < m → I s → (body j s).Ensures I) → forInt lo hi s body = .ub w := by
  intro k
  induction k with
  | zero =>
    intro lo s hk hs _
    obtain rfl : lo = m := by omega
    rw [forInt_succ hm, hub s hs]
    rfl
  | succ k ih =>
    intro lo s hk hs hstep
    obtain ⟨s', h1, h2⟩ := hstep lo s le_rfl (by omega) hs
    rw [forInt_succ (by omega), h1, Res.bind_ok]
    exact ih (lo + 1) s' (by omega) h2 fun j s hj1 hj2 hs => hstep j s (by omega) hj2 hs

/-- The progress test is defined if no report is due or there are five sub-series. -/
theorem log_fine {doLog : Bool} {t : ℕ} : (doLog = true → 5 ≤ t) → logProgress doLog t = .ok () := by
  intro h
  unfold logProgress
  refine if_neg ?_
  rintro ⟨h1, h2⟩
  have h3 := h h1
  have h4 : ((t : Int)).tdiv 5 = (t : Int) / 5 := Int.tdiv_eq_ediv_of_nonneg (by omega)
  rw [h4] at h2
  omega

end Onex
