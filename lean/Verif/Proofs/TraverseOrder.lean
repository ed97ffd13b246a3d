import Verif.Spec.Answer
import Verif.Proofs.Traverse

/-!
# The order in which lengths are tried
-/

namespace Onex
open DataT Spec

theorem Spec.Nearer.trans {q a b c : Int} (h : Nearer q a b) (h' : Nearer q b c) : Nearer q a c := by
  unfold Nearer at *
  omega

theorem Spec.Nearer.irrefl {q a : Int} : ¬ Nearer q a a := by
  unfold Nearer
  omega

theorem Spec.Nearer.total {q a b : Int} : Nearer q a b ∨ a = b ∨ Nearer q b a := by
  unfold Nearer
  rcases abs_cases (a - q) with h | h <;> rcases abs_cases (b - q) with h' | h' <;> omega

variable {α : Type} [DataT α]

/-- What the loop keeps. -/
structure NearInv (q : Int) (s : OrderState) : Prop where
  sorted : s.order.Pairwise (Nearer q)
  mem : ∀ l ∈ s.order, s.low < l ∧ l < s.high
  ends : s.low < q ∧ q < s.high
  low : s.lowStop = false → s.high - q ≤ q - s.low
  high : s.highStop = false → q - s.low ≤ s.high - q

theorem near_append {q x : Int} {o : List Int} (h : o.Pairwise (Nearer q)) (hx : ∀ l ∈ o, Nearer q l x) :
    (o ++ [x]).Pairwise (Nearer q) := by
  rw [List.pairwise_append]
  refine ⟨h, by simp, ?_⟩
  intro a ha b hb
  rw [List.mem_singleton.mp hb]
  exact hx a ha

theorem traverseStep_near {ratio : α} {q N : Int} {s s' : OrderState} (h : NearInv q s)
    (hs : traverseStep ratio q N s = .ok s') : NearInv q s' := by
  rw [traverseStep_eq] at hs
  unfold markStops at hs
  simp only at hs
  generalize e1 : (if s.low < 2 then { s with lowStop := true } else s) = s1 at hs
  have h1 : NearInv q s1 := by
    subst e1
    split
    · exact ⟨h.sorted, h.mem, h.ends, by simp, h.high⟩
    · exact h
  clear e1 h
  generalize e2 : (if s1.high > N then { s1 with highStop := true } else s1) = s2 at hs
  have h2 : NearInv q s2 := by
    subst e2
    split
    · exact ⟨h1.sorted, h1.mem, h1.ends, h1.low, by simp⟩
    · exact h1
  clear e2 h1
  obtain ⟨s3, e3, hs⟩ := Res.bind_eq_ok.mp hs
  unfold lowHalf at e3
  unfold highHalf at hs
  -- after the first half
  have h3 : s3.order.Pairwise (Nearer q) ∧ (∀ l ∈ s3.order, s3.low < l ∧ l < s3.high) ∧ (s3.low < q ∧ q < s3.high) ∧
      (s3.lowStop = false → s3.high - q < q - s3.low) ∧ (s3.highStop = false → q - s3.low - 1 ≤ s3.high - q) := by
    have hl := h2.low
    have hh := h2.high
    have he := h2.ends
    cases hb : s2.lowStop
    · have hl := hl hb
      simp only [hb, Bool.not_false, if_true] at e3
      obtain ⟨r, _, e3⟩ := Res.bind_eq_ok.mp e3
      split at e3
      · cases e3
        refine ⟨near_append h2.sorted ?_, ?_, by simp only; omega, by simp only; omega, fun h => ?_⟩
        · intro l hl'
          have := h2.mem l hl'
          unfold Nearer
          rcases abs_cases (l - q) with h | h <;> rcases abs_cases (s2.low - q) with h' | h' <;> omega
        · intro l hl'
          rcases List.mem_append.mp hl' with hl' | hl'
          · have := h2.mem l hl'
            simp only
            omega
          · rw [List.mem_singleton.mp hl']
            simp only
            omega
        · have := hh h
          simp only
          omega
      · cases e3
        exact ⟨h2.sorted, h2.mem, he, by simp, fun h => by have := hh h; simp only; omega⟩
    · simp only [hb, Bool.not_true] at e3
      cases e3
      exact ⟨h2.sorted, h2.mem, he, by simp [hb], fun h => by have := hh h; omega⟩
  clear e3 h2
  obtain ⟨a1, a2, a3, a4, a5⟩ := h3
  cases hb : s3.highStop
  · have a5 := a5 hb
    simp only [hb, Bool.not_false, if_true] at hs
    obtain ⟨r, _, hs⟩ := Res.bind_eq_ok.mp hs
    split at hs
    · cases hs
      refine ⟨near_append a1 ?_, ?_, by simp only; omega, fun h => ?_, fun _ => by simp only; omega⟩
      · intro l hl'
        have := a2 l hl'
        unfold Nearer
        rcases abs_cases (l - q) with h | h <;> rcases abs_cases (s3.high - q) with h' | h' <;> omega
      · intro l hl'
        rcases List.mem_append.mp hl' with hl' | hl'
        · have := a2 l hl'
          simp only
          omega
        · rw [List.mem_singleton.mp hl']
          simp only
          omega
      · have := a4 h
        simp only
        omega
    · cases hs
      exact ⟨a1, a2, a3, fun h => by have := a4 h; simp only; omega, by simp⟩
  · simp only [hb, Bool.not_true] at hs
    cases hs
    exact ⟨a1, a2, a3, fun h => by have := a4 h; omega, by simp [hb]⟩

theorem traverseLoop_near {ratio : α} {q N : Int} : ∀ (fuel : Nat) {s s' : OrderState}, NearInv q s →
    traverseLoop ratio q N fuel s = .ok s' → NearInv q s' := by
  intro fuel
  induction fuel with
  | zero =>
    intro s s' h hs
    unfold traverseLoop at hs
    split at hs
    · cases hs
      exact h
    · cases hs
  | succ fuel ih =>
    intro s s' h hs
    unfold traverseLoop at hs
    split at hs
    · cases hs
      exact h
    · obtain ⟨s1, e1, e2⟩ := Res.bind_eq_ok.mp hs
      exact ih (traverseStep_near h e1) e2

/-- Nearer lengths come first. -/
theorem traverse_near {ratio : α} {q N : Int} {order : List Int} (h : generateTraverseOrder ratio q N = .ok order) :
    order.Pairwise (Nearer q) := by
  unfold generateTraverseOrder at h
  obtain ⟨s, e, e'⟩ := Res.bind_eq_ok.mp h
  cases e'
  exact (traverseLoop_near _ (s := ⟨[q], q - 1, q + 1, false, false⟩)
    ⟨by simp, by simp, by simp, by simp, by simp⟩ e).sorted

end Onex
