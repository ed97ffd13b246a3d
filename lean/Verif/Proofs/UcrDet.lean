import Verif.Proofs.UcrEdge
import Verif.Proofs.WarpedDist

/-!
# What the result of the UCR search depends on
-/

namespace Onex

open Spec DataT

variable {r m : ℕ}

/-- The bound only looks at the normalised values. -/
theorem lbKim_congr {t t' : List Ex} {j j' : Int} {μ σ μ' σ' : Ex} {Z q : List ℝ} (hm : 3 ≤ m) (hZ : Z.length = m) (h : Holds t j μ σ Z)
    (h' : Holds t' j' μ' σ' Z) (b : Ex) : lbKim t (fins q) j m μ σ b = lbKim t' (fins q) j' m μ' σ' b := by
  have g : ∀ (z z' : Int) (k : ℕ), z = j + k → z' = j' + k → k < m → zAt t μ σ z = zAt t' μ' σ' z' := by
    intro z z' k e e' hk
    rw [e, e', h k (by omega), h' k (by omega)]
  unfold lbKim
  rw [g j j' 0 (by omega) (by omega) (by omega), g ((m : Int) - 1 + j) ((m : Int) - 1 + j') (m - 1) (by omega) (by omega) (by omega),
    g (j + 1) (j' + 1) 1 (by omega) (by omega) (by omega), g ((m : Int) - 2 + j) ((m : Int) - 2 + j') (m - 2) (by omega) (by omega) (by omega),
    g (j + 2) (j' + 2) 2 (by omega) (by omega) (by omega), g ((m : Int) - 3 + j) ((m : Int) - 3 + j') (m - 3) (by omega) (by omega) (by omega)]

/-- Values that are normalised already. -/
theorem holds_self (Z : List ℝ) : Holds (fins Z) 0 (F.fin 0 : Ex) (F.fin 1) Z := by
  intro k hk
  rw [zAt_eq (x := Z.getD k 0) (by rw [Int.zero_add]; exact vget_fins hk) one_ne_zero]
  simp

/-- Whether Kim's bound lets a window pass. -/
def KimPass (Z q : List ℝ) (b : ℝ) : Prop :=
  ∃ x, lbKim (fins Z) (fins q) 0 Z.length (F.fin 0 : Ex) (F.fin 1) (F.fin b) = .ok (F.fin x) ∧ x < b

open Classical in
/-- What the search does with window `p`: the new best value and its location. -/
noncomputable def scanStep (r : ℕ) (data query : List ℝ) (p : ℕ) (best : ℝ × ℕ) : ℝ × ℕ :=
  let W := windowAt data p query.length
  let L := dp Rounding.exact (ecost Rounding.exact (znorm W) (znorm query)) r (query.length - 1) (query.length - 1)
  if Varies W ∧ KimPass (znorm W) (znorm query) best.1 ∧ L < best.1 then (L, p) else best

/-- What it does with all of them. -/
noncomputable def scan (r : ℕ) (data query : List ℝ) : ℕ → ℝ × ℕ
  | 0 => (10 ^ 20, 0)
  | p + 1 => scanStep r data query p (scan r data query p)

theorem scan_le (data query : List ℝ) (p : ℕ) : (scan r data query p).1 ≤ 10 ^ 20 := by
  induction p with
  | zero => exact le_rfl
  | succ p ih =>
    simp only [scan, scanStep]
    split
    · rename_i h
      exact h.2.2.le.trans ih
    · exact ih

theorem looks_scan {Q : UcrQuery Ex} {data query : List ℝ} (hq : query.length = m) (hQ : QueryOk Q m r (znorm query)) (hm : 3 ≤ m)
    {p : ℕ} (hp : p + m ≤ data.length) :
    Looks r m Q (windowAt data p m) p (fun v loc => v = (scan r data query p).1 ∧ loc = ((scan r data query p).2 : Int))
      (fun v loc => v = (scan r data query (p + 1)).1 ∧ loc = ((scan r data query (p + 1)).2 : Int)) := by
  rintro s j off lBuff uBuff Lb Ub v hs hLb hUb ht hl hu hLU hv ⟨hv', hloc⟩
  have hWl : (windowAt data p m).length = m := windowAt_length hp
  have hbig := scan_le (r := r) data query p
  rw [← hv'] at hbig
  have e : scan r data query (p + 1) = scanStep r data query p (scan r data query p) := rfl
  rw [e]
  have hsame : ∀ s' : UcrState Ex, After m s s' → s'.bsf = F.fin v → s'.loc = s.loc →
      ¬ (Varies (windowAt data p m) ∧ KimPass (znorm (windowAt data p m)) (znorm query) v ∧
        dp Rounding.exact (ecost Rounding.exact (znorm (windowAt data p m)) (znorm query)) r (m - 1) (m - 1) < v) →
      After m s s' ∧ ∃ v' : ℝ, s'.bsf = F.fin v' ∧ v' = (scanStep r data query p (scan r data query p)).1 ∧
        s'.loc = ((scanStep r data query p (scan r data query p)).2 : Int) := by
    intro s' h1 h2 h3 h4
    rw [hv'] at h4
    refine ⟨h1, v, h2, ?_⟩
    unfold scanStep
    dsimp only
    rw [hq, if_neg h4, h3]
    exact ⟨hv', hloc⟩
  by_cases hvar : Varies (windowAt data p m)
  · have hZl : (znorm (windowAt data p m)).length = m := by rw [znorm_length, hWl]
    have hql : (znorm query).length = m := by rw [znorm_length, hq]
    have hL := dp_isLeast (r := r) (znorm (windowAt data p m)) (znorm query) (by rw [hZl, hql]; unfold inB; omega)
    rw [hZl, hql] at hL
    have hkim := lbKim_congr (q := znorm query) hm hZl (holds_window hWl hvar ht) (holds_self (znorm (windowAt data p m))) (F.fin v)
    by_cases hpass : KimPass (znorm (windowAt data p m)) (znorm query) v
    · obtain ⟨x, hx, hlt⟩ := hpass
      rw [hZl] at hx
      refine (candidate_core hQ hm hWl hvar hs hLb hUb ht hl hu hLU hv hbig hL ?_).mono ?_
      · rw [hkim, hx, Res.ensures_ok]
        exact ⟨x, rfl, Or.inl hlt⟩
      · rintro s' ⟨h0, ⟨h1, h2, h3⟩ | ⟨h1, h2, h3⟩⟩
        · refine ⟨h0, _, h2, ?_⟩
          unfold scanStep
          dsimp only
          rw [hq, ← hv', if_pos ⟨hvar, ⟨x, by rw [hZl]; exact hx, hlt⟩, h1⟩]
          exact ⟨rfl, h3⟩
        · exact hsame s' h0 h2 h3 (fun h => not_lt.mpr h1 h.2.2)
    · obtain ⟨y, hy, x, rfl, _⟩ := lbKim_spec hZl hql hm (holds_self (znorm (windowAt data p m))) (F.fin v)
      have hnot : ¬ x < v := fun h => hpass ⟨x, by rw [hZl]; exact hy, h⟩
      unfold ucrCandidate
      rw [hQ.hq, hQ.hm, hv, hkim, hy]
      simp only [Res.bind_ok]
      rw [if_neg (fun h => hnot ((lt_fin x v).mp h)), Res.pure_eq, Res.ensures_ok]
      exact hsame s ⟨hs, rfl, rfl, rfl⟩ hv rfl (fun h => hpass h.2.1)
  · rw [const_stdev hvar, candidate_nan hQ hm, Res.ensures_ok]
    · exact hsame s ⟨hs, rfl, rfl, rfl⟩ hv rfl (fun h => hvar h.1)
    · intro k hk
      have h := ht k hk
      have hmem : (windowAt data p m).getD k 0 ∈ windowAt data p m := by
        have : k < (windowAt data p m).length := by omega
        rw [List.getD_eq_getElem?_getD, List.getElem?_eq_getElem this]
        exact List.getElem_mem this
      rw [const_mean hvar hmem] at h
      exact zAt_const h

/-- From three values on, the result is determined by the data and the query. -/
theorem calculate_det (data query : List ℝ) (hm : 3 ≤ m) (hr : r < m) (hq : m ≤ query.length) :
    ∃ (loc : Int) (v : ℝ), ∀ (N : ℕ) (junk : Ex) (o : List ℕ), m ≤ N → N - m + 1 ≤ 1000000 → o.Perm (List.range m) →
      calculateWith N junk (o.map Int.ofNat) (fins data) (fins query) m r =
        .ok (loc, F.fin v, ((max data.length (m - 1) : ℕ) : Int)) := by
  by_cases hv : Varies (query.take m)
  · refine ⟨(scan r data (query.take m) (data.length + 1 - m)).2, (scan r data (query.take m) (data.length + 1 - m)).1, ?_⟩
    intro N junk o hN hdot ho
    obtain ⟨Q, hp, hQ⟩ := prepare_spec (by omega) hq hv hr junk ho
    have hql : (query.take m).length = m := by simp; omega
    obtain ⟨loc, v, h1, rfl, rfl⟩ := search_spec
      (G := fun p v loc => v = (scan r data (query.take m) p).1 ∧ loc = ((scan r data (query.take m) p).2 : Int)) hQ.hm hQ.hr (by omega)
      ⟨rfl, rfl⟩ (fun p hp => looks_scan hql hQ hm hp) hr hN hdot hp
    exact h1
  · exact ⟨0, 10 ^ 20, fun N junk o hN hdot ho => const_query hm hr hN hdot hq hv junk ho⟩

/-! ## Scaled copies -/

theorem average_affine (w : List ℝ) (hw : w ≠ []) (a b : ℝ) : average (w.map fun x => a * x + b) = a * average w + b := by
  have hl : (w.length : ℝ) ≠ 0 := by
    have := List.length_pos_iff.mpr hw
    positivity
  have hs : (w.map fun x => a * x + b).sum = a * w.sum + w.length * b := by
    clear hw hl
    induction w with
    | nil => simp
    | cons c w ih =>
      simp only [List.map_cons, List.sum_cons, List.length_cons, ih]
      push_cast
      ring
  unfold average
  rw [hs, List.length_map]
  field_simp

theorem znorm_affine (w : List ℝ) (hw : w ≠ []) {a : ℝ} (ha : 0 < a) (b : ℝ) : znorm (w.map fun x => a * x + b) = znorm w := by
  have hs : stdev (w.map fun x => a * x + b) = a * stdev w := by
    unfold stdev
    rw [average_affine w hw, List.map_map, List.length_map]
    have e : ((fun x => (x - (a * average w + b)) ^ 2) ∘ fun x => a * x + b) = fun x => a ^ 2 * (x - average w) ^ 2 := by
      funext x
      simp only [Function.comp]
      ring
    rw [e, List.sum_map_mul_left, mul_div_assoc, Real.sqrt_mul (by positivity), Real.sqrt_sq ha.le]
  unfold znorm
  rw [hs, average_affine w hw, List.map_map]
  apply List.map_congr_left
  intro x _
  simp only [Function.comp]
  have e : a * x + b - (a * average w + b) = a * (x - average w) := by ring
  rw [e, mul_div_mul_left _ _ ha.ne']

theorem least_self (z : List ℝ) : IsLeast (warpCosts r z z) 0 := by
  have h := dp_isLeast (r := r) z z (by unfold inB; omega)
  rwa [dp_diag_self] at h

theorem warp_nonneg {z q : List ℝ} {L : ℝ} (h : IsLeast (warpCosts r z q) L) : 0 ≤ L := by
  obtain ⟨p, _, rfl⟩ := h.1
  unfold pathCost
  apply List.sum_nonneg
  intro x hx
  obtain ⟨c, _, rfl⟩ := List.mem_map.mp hx
  positivity

theorem varies_affine {w : List ℝ} (h : Varies w) {a : ℝ} (ha : 0 < a) (b : ℝ) : Varies (w.map fun x => a * x + b) := by
  obtain ⟨x, hx, y, hy, hne⟩ := h
  refine ⟨a * x + b, List.mem_map.mpr ⟨x, hx, rfl⟩, a * y + b, List.mem_map.mpr ⟨y, hy, rfl⟩, ?_⟩
  intro e
  apply hne
  have : a * (x - y) = 0 := by linarith
  rcases mul_eq_zero.mp this with h | h
  · exact absurd h ha.ne'
  · linarith

end Onex
