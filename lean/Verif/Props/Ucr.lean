import Verif.Proofs.UcrDet
import Verif.Proofs.RunRat

/-!
# C50, C51, C52: the search of the UCR suite

src/lib/trillionDTW.cpp:66-170 and 244-572, in exact arithmetic.
-/

namespace Onex

open Spec DataT

variable {r m p : ℕ} {x q lo up : List ℝ}

/-! ## C50: the lower bounds -/

/-- The window's values are where the functions look for them. -/
theorem at_window (hp : p + m ≤ x.length) : ∀ k : ℕ, k < m → vget (fins x : List Ex) ((p : Int) + k) = .ok (F.fin ((windowAt x p m).getD k 0)) := by
  intro k hk
  have e : (p : Int) + (k : Int) = ((p + k : ℕ) : Int) := by push_cast; rfl
  rw [e, vget_fins (by omega), windowAt_getD hk]

/-- C50, Kim's bound, for queries of six values or more: whatever the best value so far and wherever the function returns, the bound is
no more than the least warping cost between the normalised window and the query. -/
theorem C50_kim_partial (hm : 6 ≤ m) (hp : p + m ≤ x.length) (hv : Varies (windowAt x p m)) (hq : q.length = m) {L : ℝ}
    (hL : IsLeast (warpCosts r (znorm (windowAt x p m)) q) L) (bsf : Ex) :
    ∃ v, lbKim (fins x) (fins q) p m (F.fin (average (windowAt x p m))) (F.fin (stdev (windowAt x p m))) bsf = .ok (F.fin v) ∧
      v ≤ L := by
  have hW : (windowAt x p m).length = m := windowAt_length hp
  have hZ : (znorm (windowAt x p m)).length = m := by rw [znorm_length, hW]
  obtain ⟨_, h1, v, rfl, h2⟩ := lbKim_le (r := r) hZ hq hm (holds_window hW hv (at_window hp)) bsf
  refine ⟨v, h1, ?_⟩
  obtain ⟨w, hw, rfl⟩ := hL.1
  rw [hZ, hq] at hw
  exact h2 w hw

/-- With five values it is not a lower bound: the least cost is 6.25, and the function returns 7.8125. -/
theorem C50_kim_five_counterexample :
    lbKim (fins [0, 0, 0, -1, -2]) (fins (znorm [0, 0, 1, 0, 0])) 0 5 (F.fin (average [0, 0, 0, -1, -2]))
      (F.fin (stdev [0, 0, 0, -1, -2])) (F.fin (15 / 2) : Ex) = .ok (F.fin (125 / 16)) ∧
    IsLeast (warpCosts 0 (znorm [0, 0, 0, -1, -2]) (znorm [0, 0, 1, 0, 0])) (25 / 4) := by
  refine ⟨kim_w1 (holds_window (m := 5) rfl varies_w1 ?_), least1⟩
  intro k hk
  rw [Int.zero_add, vget_fins (by simpa using hk)]

/-- What the two functions are given about the query: the values, arranged by `order`. -/
def arranged (o : List ℕ) (l : List ℝ) : List Ex := fins (o.map fun k => l.getD k 0)

theorem arranged_get {o : List ℕ} {l : List ℝ} (i : ℕ) (hi : i < o.length) : vget (arranged o l) (i : Int) = .ok (F.fin (l.getD o[i] 0)) := by
  unfold arranged
  rw [vget_fins (by simpa using hi)]
  simp [List.getD, hi]

/-- C50, the bound from the envelope of the query: no more than the least cost, in whatever order the positions are visited, and
whether or not the loop is left early. If it is not, the entries left in `cb`, added up from the end, are bounds `dtw` may abandon on. -/
theorem C50_keogh (hm : 1 ≤ m) (hp : p + m ≤ x.length) (hv : Varies (windowAt x p m)) (hq : q.length = m) (henv : IsEnvelope q lo up r)
    {o : List ℕ} (ho : o.Perm (List.range m)) {L : ℝ} (hL : IsLeast (warpCosts r (znorm (windowAt x p m)) q) L)
    (cb0 : List Ex) (hcb0 : cb0.length = m) (bsf : ℝ) :
    ∃ v cb, lbKeogh (o.map Int.ofNat) (fins x) (arranged o up) (arranged o lo) cb0 p m (F.fin (average (windowAt x p m)))
        (F.fin (stdev (windowAt x p m))) (F.fin bsf) = .ok (F.fin v, cb) ∧ v ≤ L ∧
      (v < bsf → ∀ cb1 : List Ex, cb1.length = m → ∃ C, cumulate m cb cb1 = .ok (fins C) ∧ C.length = m ∧
        ValidCb r (znorm (windowAt x p m)) q C) := by
  have hW : (windowAt x p m).length = m := windowAt_length hp
  have hZ : (znorm (windowAt x p m)).length = m := by rw [znorm_length, hW]
  obtain ⟨⟨_, cb⟩, h1, v, K, rfl, f2, f3, f4, f5, f6⟩ := lbKeogh_spec ho hZ (holds_window hW hv (at_window hp)) (fun k => lo.getD k 0)
    (fun k => up.getD k 0) (fun i hi => arranged_get i hi) (fun i hi => arranged_get i hi) bsf cb0 hcb0
  have rowb : RowBound r m (znorm (windowAt x p m)) q
      (fun k => outside ((znorm (windowAt x p m)).getD k 0) (lo.getD k 0) (up.getD k 0)) := by
    intro i j hi hj hin
    have hmem : q.getD j 0 ∈ window q r i := by
      have : j < q.length := by omega
      exact ⟨j, by rw [List.getD_eq_getElem?_getD, List.getElem?_eq_getElem this]; rfl, hin.1, hin.2⟩
    exact outside_le ((henv.low i (by omega)).2 hmem) ((henv.upp i (by omega)).2 hmem)
  refine ⟨v, cb, h1, ?_, ?_⟩
  · obtain ⟨w, hw, rfl⟩ := hL.1
    rw [hZ, hq] at hw
    have := rows_le hm rowb hw K f4 0 f5 (fun k _ => Nat.zero_le k)
    rw [filter_all] at this
    rw [f3]
    exact this
  · intro hlt cb1 hcb1
    refine ⟨_, cumulate_spec hm _ (f6 hlt) cb1 hcb1, by simp, ?_⟩
    intro i hi w hw
    have h := validCb_of hm hZ hq (Or.inl rowb) i (by omega) w hw
    have hi' : i + r + 1 < m := by omega
    simpa [List.getD, hi'] using h

/-- C50, the bound from the envelope of the data, likewise. -/
theorem C50_keogh_data (hm : 1 ≤ m) (hp : p + m ≤ x.length) (hv : Varies (windowAt x p m)) (hq : q.length = m)
    (henv : IsEnvelope x lo up r) {o : List ℕ} (ho : o.Perm (List.range m)) {L : ℝ}
    (hL : IsLeast (warpCosts r (znorm (windowAt x p m)) q) L) (cb0 : List Ex) (hcb0 : cb0.length = m) (bsf : ℝ) :
    ∃ v cb, lbKeoghData (o.map Int.ofNat) (arranged o q) cb0 (fins lo) (fins up) p m (F.fin (average (windowAt x p m)))
        (F.fin (stdev (windowAt x p m))) (F.fin bsf) = .ok (F.fin v, cb) ∧ v ≤ L ∧
      (v < bsf → ∀ cb1 : List Ex, cb1.length = m → ∃ C, cumulate m cb cb1 = .ok (fins C) ∧ C.length = m ∧
        ValidCb r (znorm (windowAt x p m)) q C) := by
  have hW : (windowAt x p m).length = m := windowAt_length hp
  have hZ : (znorm (windowAt x p m)).length = m := by rw [znorm_length, hW]
  have hσ := stdev_pos.mpr hv
  have hlo := henv.lenLo
  have hup := henv.lenUp
  set μ := average (windowAt x p m)
  set σ := stdev (windowAt x p m)
  have holds : ∀ y : List ℝ, p + m ≤ y.length → Holds (fins y) p (F.fin μ : Ex) (F.fin σ) ((windowAt y p m).map fun v => (v - μ) / σ) := by
    intro y hy k hk
    have hyl : (windowAt y p m).length = m := windowAt_length hy
    rw [List.length_map, hyl] at hk
    rw [zAt_eq (at_window hy k hk) hσ.ne']
    have : k < (windowAt y p m).length := by omega
    simp [List.getD, this]
  have val : ∀ (y : List ℝ) (k : ℕ), p + m ≤ y.length → k < m → ((windowAt y p m).map fun v => (v - μ) / σ).getD k 0 = (y.getD (p + k) 0 - μ) / σ := by
    intro y k hy hk
    have hyl : (windowAt y p m).length = m := windowAt_length hy
    rw [← windowAt_getD (m := m) hk]
    have : k < (windowAt y p m).length := by omega
    simp [List.getD, this]
  obtain ⟨⟨_, cb⟩, h1, v, K, rfl, f2, f3, f4, f5, f6⟩ := lbKeoghData_spec (q := q) ho _ _
    (by rw [List.length_map]; exact windowAt_length (by omega)) (by rw [List.length_map]; exact windowAt_length (by omega))
    (holds lo (by omega)) (holds up (by omega)) (fun i hi => arranged_get i hi) bsf cb0 hcb0
  have colb : ColBound r m (znorm (windowAt x p m)) q (fun k => outside (q.getD k 0) (((windowAt lo p m).map fun v => (v - μ) / σ).getD k 0)
      (((windowAt up p m).map fun v => (v - μ) / σ).getD k 0)) := by
    intro i j hi hj hin
    have hmem : x.getD (p + i) 0 ∈ window x r (p + j) := by
      have : p + i < x.length := by omega
      have h1 := hin.1
      have h2 := hin.2
      exact ⟨p + i, by rw [List.getD_eq_getElem?_getD, List.getElem?_eq_getElem this]; rfl, by omega, by omega⟩
    have l1 := (henv.low (p + j) (by omega)).2 hmem
    have l2 := (henv.upp (p + j) (by omega)).2 hmem
    have ez : (znorm (windowAt x p m)).getD i 0 = (x.getD (p + i) 0 - μ) / σ := by
      rw [znorm_getD _ (by omega), windowAt_getD hi]
    have := outside_le (x := q.getD j 0) (y := (znorm (windowAt x p m)).getD i 0)
      (lo := ((windowAt lo p m).map fun v => (v - μ) / σ).getD j 0) (up := ((windowAt up p m).map fun v => (v - μ) / σ).getD j 0)
      (by rw [val lo j (by omega) hj, ez]; exact div_le_div_of_nonneg_right (by linarith) hσ.le)
      (by rw [val up j (by omega) hj, ez]; exact div_le_div_of_nonneg_right (by linarith) hσ.le)
    unfold sq
    refine this.trans (le_of_eq ?_)
    ring
  refine ⟨v, cb, h1, ?_, ?_⟩
  · obtain ⟨w, hw, rfl⟩ := hL.1
    rw [hZ, hq] at hw
    rw [f3]
    exact hit_sum (fun c => c.2) _ K f4 (fun k hk => by
      have := f5 k hk
      obtain ⟨c, hc, e⟩ := hits_col hw (k := k) (by omega)
      have hle := path_le hw c hc
      exact ⟨c, hc, e, by rw [← e]; exact colb c.1 c.2 (by omega) (by omega) (hw.band c hc)⟩)
  · intro hlt cb1 hcb1
    refine ⟨_, cumulate_spec hm _ (f6 hlt) cb1 hcb1, by simp, ?_⟩
    intro i hi w hw
    have h := validCb_of hm hZ hq (Or.inr colb) i (by omega) w hw
    have hi' : i + r + 1 < m := by omega
    simpa [List.getD, hi'] using h

/-! ## C51: the nearest window -/

/-- C51, for queries of six values or more: the search returns the first of the windows of least cost, and that cost. Windows that do
not vary are passed over; if no window has a cost below `1e20` the location is 0 and the value `1e20`. -/
theorem C51_first_nearest_partial {data query : List ℝ} (hm : 6 ≤ m) (hm' : m ≤ 100000) (hr : r < m) (hq : m ≤ query.length)
    (hv : Varies (query.take m)) (junk : Ex) {o : List ℕ} (ho : o.Perm (List.range m)) :
    ∃ (loc : ℕ) (v : ℝ), calculate junk (o.map Int.ofNat) (fins data) (fins query) m r =
        .ok (loc, F.fin v, ((max data.length (m - 1) : ℕ) : Int)) ∧
      FirstBest r data (query.take m) (10 ^ 20) (data.length + 1 - m) loc v :=
  calculate_spec (N := 100000) hm hr hm' (by omega) hq hv junk ho

/-- The same for chunks of any size `N`; `calculate` has `N = 100000`. -/
theorem C51_every_chunk_partial {data query : List ℝ} {N : ℕ} (hm : 6 ≤ m) (hN : m ≤ N) (hN' : N - m + 1 ≤ 1000000) (hr : r < m)
    (hq : m ≤ query.length) (hv : Varies (query.take m)) (junk : Ex) {o : List ℕ} (ho : o.Perm (List.range m)) :
    ∃ (loc : ℕ) (v : ℝ), calculateWith N junk (o.map Int.ofNat) (fins data) (fins query) m r =
        .ok (loc, F.fin v, ((max data.length (m - 1) : ℕ) : Int)) ∧
      FirstBest r data (query.take m) (10 ^ 20) (data.length + 1 - m) loc v :=
  calculate_spec hm hr hN hN' hq hv junk ho

/-- The answer is pinned down: no two different results are both the first window of least cost. -/
theorem C51_answer_unique {data query : List ℝ} {bound : ℝ} {n loc loc' : ℕ} {v v' : ℝ} (h : FirstBest r data query bound n loc v)
    (h' : FirstBest r data query bound n loc' v') : loc = loc' ∧ v = v' := by
  rcases h with ⟨h1, h2, h3, h4, h5⟩ | ⟨h1, h2, h3⟩ <;> rcases h' with ⟨g1, g2, g3, g4, g5⟩ | ⟨g1, g2, g3⟩
  · have e : v = v' := le_antisymm (h4 _ _ g1 g3) (g4 _ _ h1 h3)
    refine ⟨?_, e⟩
    subst e
    rcases lt_trichotomy loc loc' with h | h | h
    · exact absurd (g5 _ _ h h3) (lt_irrefl _)
    · exact h
    · exact absurd (h5 _ _ h g3) (lt_irrefl _)
  · exact absurd (g3 _ _ h1 h3) (not_le.mpr h2)
  · exact absurd (h3 _ _ g1 g3) (not_le.mpr g2)
  · exact ⟨by rw [h1, g1], by rw [h2, g2]⟩

/-- So a stretch of the data that is the query, scaled up or down and shifted, is found: the value is 0, and the location is this one or
an earlier one of the same value. -/
theorem C51_scaled_copy_partial {data query : List ℝ} {N : ℕ} (hm : 6 ≤ m) (hN : m ≤ N) (hN' : N - m + 1 ≤ 1000000) (hr : r < m)
    (hq : query.length = m) (hv : Varies query) {a b : ℝ} (ha : 0 < a) (hp : p + m ≤ data.length)
    (hcopy : windowAt data p m = query.map fun y => a * y + b) (junk : Ex) {o : List ℕ} (ho : o.Perm (List.range m)) :
    ∃ loc : ℕ, calculateWith N junk (o.map Int.ofNat) (fins data) (fins query) m r = .ok (loc, F.fin 0, data.length) ∧ loc ≤ p := by
  have et : query.take m = query := by rw [← hq, List.take_length]
  obtain ⟨loc, v, h1, h2⟩ := C51_every_chunk_partial (data := data) hm hN hN' hr hq.ge (by rwa [et]) junk ho
  rw [et] at h2
  have hne : query ≠ [] := by
    intro h
    rw [h] at hq
    simp at hq
    omega
  have hcost : WindowCost r data query p 0 := by
    refine ⟨by rw [hq]; exact hp, ?_, ?_⟩
    · rw [hq, hcopy]
      exact varies_affine hv ha b
    · rw [hq, hcopy, znorm_affine query hne ha b]
      exact least_self _
  have emax : max data.length (m - 1) = data.length := by omega
  rw [emax] at h1
  rcases h2 with ⟨_, _, h3, h4, h5⟩ | ⟨_, _, h3⟩
  · have hle := h4 p 0 (by omega) hcost
    have hge := warp_nonneg h3.least
    have hv0 : v = 0 := le_antisymm hle hge
    refine ⟨loc, by rw [h1, hv0], ?_⟩
    by_contra hc
    have := h5 p 0 (by omega) hcost
    linarith
  · have := h3 p 0 (by omega) hcost
    norm_num at this

/-- With five values the claim is false: the second of two windows costs 6.25, the search returns the first one, which costs 7.5. -/
theorem C51_five_counterexample (junk : Ex) {o : List ℕ} (ho : o.Perm (List.range 5)) :
    calculate junk (o.map Int.ofNat) (fins [0, 0, 0, 0, -1, -2]) (fins [0, 0, 1, 0, 0]) 5 0 = .ok (0, F.fin (15 / 2), 6) ∧
    WindowCost 0 [0, 0, 0, 0, -1, -2] [0, 0, 1, 0, 0] 0 (15 / 2) ∧
    WindowCost 0 [0, 0, 0, 0, -1, -2] [0, 0, 1, 0, 0] 1 (25 / 4) := by
  refine ⟨five_fails (N := 100000) (by omega) (by omega) junk ho, ⟨by simp, varies_w0, least0⟩, ⟨by simp, varies_w1, least1⟩⟩

/-- A band as wide as the query: there is no result, because the envelope is written before the beginning of its arrays. -/
theorem C51_wide_band_undefined {α : Type} [DataT α] (junk : α) (order : List Int) (data query : List α) {m r : Int} (hm : 0 ≤ m)
    (hr : m ≤ r) (y : Int × α × Int) : calculate junk order data query m r ≠ .ok y :=
  calculate_wide 100000 junk order data query hm hr y

/-- A constant query: whatever the data, location 0 and the value `1e20`. -/
theorem C51_constant_query {data query : List ℝ} (hm : 3 ≤ m) (hm' : m ≤ 100000) (hr : r < m) (hq : m ≤ query.length)
    (hv : ¬ Varies (query.take m)) (junk : Ex) {o : List ℕ} (ho : o.Perm (List.range m)) :
    calculate junk (o.map Int.ofNat) (fins data) (fins query) m r =
      .ok (0, F.fin (10 ^ 20), ((max data.length (m - 1) : ℕ) : Int)) :=
  const_query (N := 100000) hm hr hm' (by omega) hq hv junk ho

/-! ## C52: what the result depends on -/

/-- C52 for a query file that is long enough (with a shorter one it is false, `C52_short_file_counterexample`), in exact arithmetic: for
every query of three values or more and a narrower band, there is one result: it does not depend on the size of the chunks in
which the data are read, on what the arrays held before, or on how `qsort` arranges the positions. -/
theorem C52_result_determined_partial (data query : List ℝ) (hm : 3 ≤ m) (hr : r < m) (hq : m ≤ query.length) :
    ∃ (loc : Int) (v : ℝ), ∀ (N : ℕ) (junk : Ex) (o : List ℕ), m ≤ N → N - m + 1 ≤ 1000000 → o.Perm (List.range m) →
      calculateWith N junk (o.map Int.ofNat) (fins data) (fins query) m r =
        .ok (loc, F.fin v, ((max data.length (m - 1) : ℕ) : Int)) :=
  calculate_det data query hm hr hq

/-! ## Cases -/

/-- A query of six values and data in which it occurs twice, the first time doubled and shifted. -/
example (junk : Ex) : calculate junk ([0, 1, 2, 3, 4, 5].map Int.ofNat) (fins [9, 1, 3, 1, 1, 1, 3, 0, 0, 1, 0, 0, 0, 1]) (fins [0, 1, 0, 0, 0, 1]) 6 2 =
    .ok (1, F.fin 0, 14) ∨ calculate junk ([0, 1, 2, 3, 4, 5].map Int.ofNat) (fins [9, 1, 3, 1, 1, 1, 3, 0, 0, 1, 0, 0, 0, 1])
      (fins [0, 1, 0, 0, 0, 1]) 6 2 = .ok (0, F.fin 0, 14) := by
  obtain ⟨loc, h1, h2⟩ := C51_scaled_copy_partial (m := 6) (r := 2) (p := 1) (a := 2) (b := 1)
    (data := [9, 1, 3, 1, 1, 1, 3, 0, 0, 1, 0, 0, 0, 1]) (query := [0, 1, 0, 0, 0, 1]) (N := 100000) (by omega) (by omega) (by omega) (by omega) rfl
    ⟨0, by simp, 1, by simp, by norm_num⟩ (by norm_num) (by simp) (by norm_num [windowAt]) junk (o := [0, 1, 2, 3, 4, 5]) (List.Perm.refl _)
  have : loc = 0 ∨ loc = 1 := by omega
  rcases this with rfl | rfl
  · exact Or.inr h1
  · exact Or.inl h1

/-- A window and a query for the bounds: the hypotheses of C50 are met. -/
example : ∃ L, IsLeast (warpCosts 1 (znorm (windowAt [7, 0, 0, 0, 0, 0, 1] 1 6)) [0, 1, 0, 0, 0, 1]) L ∧
    Varies (windowAt [7, 0, 0, 0, 0, 0, 1] 1 6) :=
  ⟨_, dp_isLeast (r := 1) _ _ (by simp [inB, windowAt]), ⟨0, by simp [windowAt], 1, by simp [windowAt], by norm_num⟩⟩

/-- A constant query of three values. -/
example (junk : Ex) : calculate junk ([2, 0, 1].map Int.ofNat) (fins [1, 2, 3, 4]) (fins [5, 5, 5]) 3 1 = .ok (0, F.fin (10 ^ 20), 4) :=
  C51_constant_query (m := 3) (r := 1) (data := [1, 2, 3, 4]) (query := [5, 5, 5]) (by omega) (by omega) (by omega) (by simp)
    (by rintro ⟨x, hx, y, hy, h⟩; simp at hx hy; exact h (by rw [hx, hy])) junk (o := [2, 0, 1]) (by decide)

/-- The search itself run by the kernel, twice: one window per chunk, and three; the query is the window at 1. -/
example : calculateWith 4 (F.fin ((77 : ℚ) : ℝ) : Ex) [0, 1, 2, 3] (fins (([1, 1, -1, -1, 1, 1] : List ℚ).map ((↑) : ℚ → ℝ)))
      (fins (([1, -1, -1, 1] : List ℚ).map ((↑) : ℚ → ℝ))) 4 1 = .ok (1, F.fin ((0 : ℚ) : ℝ), 6) ∧
    calculateWith 7 (F.fin ((77 : ℚ) : ℝ) : Ex) [3, 1, 2, 0] (fins (([1, 1, -1, -1, 1, 1] : List ℚ).map ((↑) : ℚ → ℝ)))
      (fins (([1, -1, -1, 1] : List ℚ).map ((↑) : ℚ → ℝ))) 4 1 = .ok (1, F.fin ((0 : ℚ) : ℝ), 6) :=
  ⟨calculateWith_ran (by decide +kernel), calculateWith_ran (by decide +kernel)⟩

end Onex
