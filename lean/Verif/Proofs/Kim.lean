import Verif.Proofs.WarpPath
import Verif.Proofs.WarpedDist
import Mathlib.Algebra.Order.BigOperators.Group.List

/-!
# The Kim lower bound
-/

namespace Onex

open Spec DataT

variable {a b : List ℝ} {r m n : ℕ}

/-! ## A warping path meets every ring around its two ends -/

/-- A sequence that grows by at most one in every step meets every value between its ends. -/
theorem chain_hits {γ : Type} (f : γ → ℕ) (k : ℕ) : ∀ (p : List γ) (x y : γ), p.IsChain (fun u v => f v ≤ f u + 1) →
    p.head? = some x → p.getLast? = some y → f x ≤ k → k ≤ f y → ∃ q ∈ p, f q = k
  | [], x, y, _, h, _, _, _ => by simp at h
  | [u], x, y, _, h1, h2, h3, h4 => by
    simp only [List.head?_cons, Option.some.injEq, List.getLast?_singleton] at h1 h2
    subst h1
    subst h2
    exact ⟨u, by simp, by omega⟩
  | u :: v :: p, x, y, hc, h1, h2, h3, h4 => by
    simp only [List.head?_cons, Option.some.injEq] at h1
    subst h1
    rw [List.isChain_cons_cons] at hc
    by_cases hu : f u = k
    · exact ⟨u, by simp, hu⟩
    · obtain ⟨q, hq, e⟩ := chain_hits f k (v :: p) v y hc.2 rfl
        (by rw [← h2]; simp [List.getLast?_cons_cons]) (by omega) h4
      exact ⟨q, by simp [hq], e⟩

theorem path_le {p : List (ℕ × ℕ)} : ∀ {i j : ℕ}, IsWarpPath r i j p → ∀ q ∈ p, q.1 ≤ i ∧ q.2 ≤ j := by
  induction h : p.length generalizing p with
  | zero =>
    intro i j _ q hq
    have : p = [] := List.length_eq_zero_iff.mp h
    subst this
    simp at hq
  | succ k ih =>
    intro i j hp q hq
    rcases warpPath_cases hp with ⟨rfl, rfl, rfl⟩ | ⟨p', i', j', rfl, hp', hs⟩
    · simp only [List.mem_singleton] at hq
      subst hq
      exact ⟨le_rfl, le_rfl⟩
    · rcases List.mem_append.mp hq with hq | hq
      · have := ih (p := p') (by simpa using h) hp' q hq
        rcases hs with hs | hs | hs <;> simp only [Prod.mk.injEq] at hs <;> omega
      · simp only [List.mem_singleton] at hq
        subst hq
        exact ⟨le_rfl, le_rfl⟩

/-- Ring `k` around the start: the larger coordinate is `k`. -/
theorem hits_front {p : List (ℕ × ℕ)} (hp : IsWarpPath r m n p) {k : ℕ} (hk : k ≤ max m n) :
    ∃ q ∈ p, max q.1 q.2 = k := by
  refine chain_hits (fun q => max q.1 q.2) k p (0, 0) (m, n) ?_ hp.head hp.last (by simp) hk
  refine hp.steps.imp ?_
  intro u v h
  rcases h with h | h | h <;> rw [h] <;> dsimp only <;> omega

/-- Ring `k` around the end. -/
theorem hits_back {p : List (ℕ × ℕ)} (hp : IsWarpPath r m n p) {k : ℕ} (hk : k ≤ max m n) :
    ∃ q ∈ p, max (m - q.1) (n - q.2) = k := by
  have := chain_hits (fun q : ℕ × ℕ => max (m - q.1) (n - q.2)) k p.reverse (m, n) (0, 0) ?_
    (by rw [List.head?_reverse]; exact hp.last) (by rw [List.getLast?_reverse]; exact hp.head) (by simp) (by simpa using hk)
  · obtain ⟨q, hq, e⟩ := this
    exact ⟨q, List.mem_reverse.mp hq, e⟩
  · rw [List.isChain_reverse]
    refine hp.steps.imp ?_
    intro u v h
    rcases h with h | h | h <;> rw [h] <;> dsimp only <;> omega

/-- Distinct cells of a path cost at most the whole path. -/
theorem cells_le {a b : List ℝ} {p : List (ℕ × ℕ)} (l : List (ℕ × ℕ)) (hn : l.Nodup) (hs : ∀ q ∈ l, q ∈ p) :
    pathCost a b l ≤ pathCost a b p := by
  obtain ⟨l', hperm, hsub⟩ := List.Nodup.subperm hn (by intro q hq; exact hs q hq)
  unfold pathCost
  rw [← (hperm.map _).sum_eq]
  refine (hsub.map _).sum_le_sum ?_
  intro x hx
  obtain ⟨q, _, rfl⟩ := List.mem_map.mp hx
  positivity

/-! ## What the function computes -/

/-- Squared difference of two points. -/
def sq (a b : List ℝ) (i j : ℕ) : ℝ := (a.getD i 0 - b.getD j 0) ^ 2

/-- Least cost in ring 1 around the start, and around the end. -/
noncomputable def front1 (a b : List ℝ) : ℝ := min (min (sq a b 0 1) (sq a b 1 1)) (sq a b 1 0)
noncomputable def back1 (a b : List ℝ) : ℝ :=
  min (min (sq a b (a.length - 1) (b.length - 2)) (sq a b (a.length - 2) (b.length - 2))) (sq a b (a.length - 2) (b.length - 1))
/-- Least cost in ring 2 around the start, and around the end. -/
noncomputable def front2 (a b : List ℝ) : ℝ :=
  min (min (min (sq a b 0 2) (sq a b 1 2)) (min (sq a b 2 2) (sq a b 2 1))) (sq a b 2 0)
noncomputable def back2 (a b : List ℝ) : ℝ :=
  min (min (min (sq a b (a.length - 1) (b.length - 3)) (sq a b (a.length - 2) (b.length - 3)))
    (min (sq a b (a.length - 3) (b.length - 3)) (sq a b (a.length - 3) (b.length - 2)))) (sq a b (a.length - 3) (b.length - 1))

noncomputable def ends0 (a b : List ℝ) : ℝ := sq a b 0 0 + sq a b (a.length - 1) (b.length - 1)

theorem tsGet_at {l : List ℝ} {z : Int} {k : ℕ} (h : z = k) (hk : k < l.length) :
    tsGet (fins l : List (F Rounding.exact)) z = .ok (F.fin (l.getD k 0)) := by
  rw [h]
  exact tsGet_fins hk

theorem kim_cell {i j : Int} {k l : ℕ} (hi : i = k) (hj : j = l) (hk : k < a.length) (hl : l < b.length) :
    (do let x ← tsGet (fins a : List (F Rounding.exact)) i
        let y ← tsGet (fins b : List (F Rounding.exact)) j
        return euc x y : Res (F Rounding.exact)) = .ok (F.fin (sq a b k l)) := by
  rw [tsGet_at hi hk, tsGet_at hj hl]
  simp [sq]

/-- The function with its dropout tests, for series of at least three points. -/
theorem kim_value (hm : 3 ≤ a.length) (hn : 3 ≤ b.length) (D : F Rounding.exact) :
    kimLowerBound (fins a) (fins b) D = .ok
      (if gt (F.fin (ends0 a b)) D then F.pinf
      else if gt (F.fin (ends0 a b + front1 a b)) D then F.pinf
      else if ge (F.fin (ends0 a b + front1 a b + back1 a b)) D then F.pinf
      else if min a.length b.length = 4 then F.fin (ends0 a b + front1 a b + back1 a b)
      else if gt (F.fin (ends0 a b + front1 a b + back1 a b + front2 a b)) D then F.pinf
      else F.fin (ends0 a b + front1 a b + back1 a b + front2 a b + back2 a b)) := by
  unfold kimLowerBound
  have hl : Min.min (len (fins a : List (F Rounding.exact))) (len (fins b : List (F Rounding.exact))) = (min a.length b.length : ℕ) := by
    simp [len]
  dsimp only
  have l1 : len (fins a : List (F Rounding.exact)) = (a.length : Int) := by simp [len]
  have l2 : len (fins b : List (F Rounding.exact)) = (b.length : Int) := by simp [len]
  rw [hl, if_neg (by omega), if_neg (by omega), l1, l2]
  rw [kim_cell (i := 0) (j := 0) (k := 0) (l := 0) rfl rfl (by omega) (by omega)]
  rw [kim_cell (i := (a.length : Int) - 1) (j := (b.length : Int) - 1) (k := a.length - 1) (l := b.length - 1) (by omega) (by omega) (by omega) (by omega)]
  rw [kim_cell (i := 0) (j := 1) (k := 0) (l := 1) rfl rfl (by omega) (by omega)]
  rw [kim_cell (i := 1) (j := 1) (k := 1) (l := 1) rfl rfl (by omega) (by omega)]
  rw [kim_cell (i := 1) (j := 0) (k := 1) (l := 0) rfl rfl (by omega) (by omega)]
  rw [kim_cell (i := (a.length : Int) - 1) (j := (b.length : Int) - 2) (k := a.length - 1) (l := b.length - 2) (by omega) (by omega) (by omega) (by omega)]
  rw [kim_cell (i := (a.length : Int) - 2) (j := (b.length : Int) - 2) (k := a.length - 2) (l := b.length - 2) (by omega) (by omega) (by omega) (by omega)]
  rw [kim_cell (i := (a.length : Int) - 2) (j := (b.length : Int) - 1) (k := a.length - 2) (l := b.length - 1) (by omega) (by omega) (by omega) (by omega)]
  rw [kim_cell (i := 0) (j := 2) (k := 0) (l := 2) rfl rfl (by omega) (by omega)]
  rw [kim_cell (i := 1) (j := 2) (k := 1) (l := 2) rfl rfl (by omega) (by omega)]
  rw [kim_cell (i := 2) (j := 2) (k := 2) (l := 2) rfl rfl (by omega) (by omega)]
  rw [kim_cell (i := 2) (j := 1) (k := 2) (l := 1) rfl rfl (by omega) (by omega)]
  rw [kim_cell (i := 2) (j := 0) (k := 2) (l := 0) rfl rfl (by omega) (by omega)]
  rw [kim_cell (i := (a.length : Int) - 1) (j := (b.length : Int) - 3) (k := a.length - 1) (l := b.length - 3) (by omega) (by omega) (by omega) (by omega)]
  rw [kim_cell (i := (a.length : Int) - 2) (j := (b.length : Int) - 3) (k := a.length - 2) (l := b.length - 3) (by omega) (by omega) (by omega) (by omega)]
  rw [kim_cell (i := (a.length : Int) - 3) (j := (b.length : Int) - 3) (k := a.length - 3) (l := b.length - 3) (by omega) (by omega) (by omega) (by omega)]
  rw [kim_cell (i := (a.length : Int) - 3) (j := (b.length : Int) - 2) (k := a.length - 3) (l := b.length - 2) (by omega) (by omega) (by omega) (by omega)]
  rw [kim_cell (i := (a.length : Int) - 3) (j := (b.length : Int) - 1) (k := a.length - 3) (l := b.length - 1) (by omega) (by omega) (by omega) (by omega)]
  simp only [Res.bind_ok, zero_F, add_fin, min3, min_fin, Rounding.exact_f, zero_add, Res.pure_eq, inf_F]
  have e4 : ((min a.length b.length : ℕ) : Int) = 4 ↔ min a.length b.length = 4 := by omega
  simp only [e4]
  unfold ends0 front1 back1 front2 back2
  repeat' split
  all_goals rfl

/-! ## It is a lower bound when the rings do not overlap -/

theorem sq_nonneg' (a b : List ℝ) (i j : ℕ) : 0 ≤ sq a b i j := by
  unfold sq
  positivity

theorem front1_nonneg : 0 ≤ front1 a b := le_min (le_min (sq_nonneg' _ _ _ _) (sq_nonneg' _ _ _ _)) (sq_nonneg' _ _ _ _)
theorem back1_nonneg : 0 ≤ back1 a b := le_min (le_min (sq_nonneg' _ _ _ _) (sq_nonneg' _ _ _ _)) (sq_nonneg' _ _ _ _)
theorem front2_nonneg : 0 ≤ front2 a b :=
  le_min (le_min (le_min (sq_nonneg' _ _ _ _) (sq_nonneg' _ _ _ _)) (le_min (sq_nonneg' _ _ _ _) (sq_nonneg' _ _ _ _)))
    (sq_nonneg' _ _ _ _)
theorem back2_nonneg : 0 ≤ back2 a b :=
  le_min (le_min (le_min (sq_nonneg' _ _ _ _) (sq_nonneg' _ _ _ _)) (le_min (sq_nonneg' _ _ _ _) (sq_nonneg' _ _ _ _)))
    (sq_nonneg' _ _ _ _)

theorem front1_le {q : ℕ × ℕ} (h : max q.1 q.2 = 1) : front1 a b ≤ sq a b q.1 q.2 := by
  obtain ⟨i, j⟩ := q
  dsimp only at h ⊢
  have : i = 0 ∧ j = 1 ∨ i = 1 ∧ j = 1 ∨ i = 1 ∧ j = 0 := by omega
  unfold front1
  rcases this with ⟨rfl, rfl⟩ | ⟨rfl, rfl⟩ | ⟨rfl, rfl⟩ <;> simp

theorem front2_le {q : ℕ × ℕ} (h : max q.1 q.2 = 2) : front2 a b ≤ sq a b q.1 q.2 := by
  obtain ⟨i, j⟩ := q
  dsimp only at h ⊢
  have : i = 0 ∧ j = 2 ∨ i = 1 ∧ j = 2 ∨ i = 2 ∧ j = 2 ∨ i = 2 ∧ j = 1 ∨ i = 2 ∧ j = 0 := by omega
  unfold front2
  rcases this with ⟨rfl, rfl⟩ | ⟨rfl, rfl⟩ | ⟨rfl, rfl⟩ | ⟨rfl, rfl⟩ | ⟨rfl, rfl⟩ <;> simp

theorem back1_le {q : ℕ × ℕ} (hm : 2 ≤ a.length) (hn : 2 ≤ b.length) (h1 : q.1 ≤ a.length - 1) (h2 : q.2 ≤ b.length - 1)
    (h : max (a.length - 1 - q.1) (b.length - 1 - q.2) = 1) : back1 a b ≤ sq a b q.1 q.2 := by
  obtain ⟨i, j⟩ := q
  dsimp only at h h1 h2 ⊢
  have : i = a.length - 1 ∧ j = b.length - 2 ∨ i = a.length - 2 ∧ j = b.length - 2 ∨ i = a.length - 2 ∧ j = b.length - 1 := by
    omega
  unfold back1
  rcases this with ⟨rfl, rfl⟩ | ⟨rfl, rfl⟩ | ⟨rfl, rfl⟩ <;> simp

theorem back2_le {q : ℕ × ℕ} (hm : 3 ≤ a.length) (hn : 3 ≤ b.length) (h1 : q.1 ≤ a.length - 1) (h2 : q.2 ≤ b.length - 1)
    (h : max (a.length - 1 - q.1) (b.length - 1 - q.2) = 2) : back2 a b ≤ sq a b q.1 q.2 := by
  obtain ⟨i, j⟩ := q
  dsimp only at h h1 h2 ⊢
  have : i = a.length - 1 ∧ j = b.length - 3 ∨ i = a.length - 2 ∧ j = b.length - 3 ∨ i = a.length - 3 ∧ j = b.length - 3 ∨
      i = a.length - 3 ∧ j = b.length - 2 ∨ i = a.length - 3 ∧ j = b.length - 1 := by
    omega
  unfold back2
  rcases this with ⟨rfl, rfl⟩ | ⟨rfl, rfl⟩ | ⟨rfl, rfl⟩ | ⟨rfl, rfl⟩ | ⟨rfl, rfl⟩ <;> simp

theorem cost_cons (q : ℕ × ℕ) (l : List (ℕ × ℕ)) : pathCost a b (q :: l) = sq a b q.1 q.2 + pathCost a b l := by
  simp [pathCost, sq]

theorem mem_ends {p : List (ℕ × ℕ)} (hp : IsWarpPath r m n p) : (0, 0) ∈ p ∧ (m, n) ∈ p :=
  ⟨List.mem_of_head? hp.head, List.mem_of_getLast? hp.last⟩

/-- Two rings around each end. -/
theorem two_rings {p : List (ℕ × ℕ)} (hm : 2 ≤ a.length) (hn : 2 ≤ b.length) (hx : 4 ≤ max a.length b.length)
    (hp : IsWarpPath r (a.length - 1) (b.length - 1) p) : ends0 a b + front1 a b + back1 a b ≤ pathCost a b p := by
  obtain ⟨q0, q1⟩ := mem_ends hp
  obtain ⟨f, hf, ef⟩ := hits_front hp (k := 1) (by omega)
  obtain ⟨g, hg, eg⟩ := hits_back hp (k := 1) (by omega)
  obtain ⟨g1, g2⟩ := path_le hp g hg
  have hle := cells_le (a := a) (b := b) [(0, 0), (a.length - 1, b.length - 1), f, g] (p := p) (by
    obtain ⟨f1, f2⟩ := f
    obtain ⟨g1, g2⟩ := g
    simp only [List.nodup_cons, List.mem_cons, Prod.mk.injEq, List.not_mem_nil, or_false, not_false_eq_true,
      List.nodup_nil, and_true] at *
    omega) (by simp [q0, q1, hf, hg])
  simp only [cost_cons] at hle
  have e : pathCost a b [] = 0 := by simp [pathCost]
  have h1 := front1_le (a := a) (b := b) ef
  have h2 := back1_le hm hn g1 g2 eg
  unfold ends0
  linarith

/-- Three rings around each end. -/
theorem three_rings {p : List (ℕ × ℕ)} (hm : 3 ≤ a.length) (hn : 3 ≤ b.length) (hx : 6 ≤ max a.length b.length)
    (hp : IsWarpPath r (a.length - 1) (b.length - 1) p) :
    ends0 a b + front1 a b + back1 a b + front2 a b + back2 a b ≤ pathCost a b p := by
  obtain ⟨q0, q1⟩ := mem_ends hp
  obtain ⟨f, hf, ef⟩ := hits_front hp (k := 1) (by omega)
  obtain ⟨g, hg, eg⟩ := hits_back hp (k := 1) (by omega)
  obtain ⟨f', hf', ef'⟩ := hits_front hp (k := 2) (by omega)
  obtain ⟨g', hg', eg'⟩ := hits_back hp (k := 2) (by omega)
  obtain ⟨g1, g2⟩ := path_le hp g hg
  obtain ⟨g3, g4⟩ := path_le hp g' hg'
  have hle := cells_le (a := a) (b := b) [(0, 0), (a.length - 1, b.length - 1), f, g, f', g'] (p := p) (by
    obtain ⟨f1, f2⟩ := f
    obtain ⟨g1, g2⟩ := g
    obtain ⟨f3, f4⟩ := f'
    obtain ⟨g3, g4⟩ := g'
    simp only [List.nodup_cons, List.mem_cons, Prod.mk.injEq, List.not_mem_nil, or_false, not_false_eq_true,
      List.nodup_nil, and_true] at *
    omega) (by simp [q0, q1, hf, hg, hf', hg'])
  simp only [cost_cons] at hle
  have e : pathCost a b [] = 0 := by simp [pathCost]
  have h1 := front1_le (a := a) (b := b) ef
  have h2 := back1_le (by omega) (by omega) g1 g2 eg
  have h3 := front2_le (a := a) (b := b) ef'
  have h4 := back2_le hm hn g3 g4 eg'
  unfold ends0
  linarith

end Onex
