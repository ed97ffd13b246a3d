import Verif.Proofs.UcrLoop

/-!
# Where the UCR search fails

Queries of five values, wide bands, constant queries.
-/

namespace Onex

open Spec DataT

variable {r m : ℕ}

/-! ## Bands as wide as the query -/

/-- With `r ≥ n` the second loop starts by writing before the beginning of the arrays. -/
theorem lemire_wide {α : Type} [DataT α] {t l u : List α} {n r : Int} (hn : 0 ≤ n) (hr : n ≤ r) (x : List α × List α) :
    lowerUpperLemire t n r l u ≠ .ok x := by
  intro h
  unfold lowerUpperLemire at h
  obtain ⟨du, _, h⟩ := Res.bind_eq_ok.mp h
  obtain ⟨dl, _, h⟩ := Res.bind_eq_ok.mp h
  obtain ⟨s, _, h⟩ := Res.bind_eq_ok.mp h
  obtain ⟨s', h, _⟩ := Res.bind_eq_ok.mp h
  rw [forInt_succ (by omega)] at h
  obtain ⟨s1, h, _⟩ := Res.bind_eq_ok.mp h
  unfold lemireBody2 at h
  obtain ⟨uf, _, h⟩ := Res.bind_eq_ok.mp h
  obtain ⟨tu, _, h⟩ := Res.bind_eq_ok.mp h
  obtain ⟨u', h, _⟩ := Res.bind_eq_ok.mp h
  have := (vset_eq_ok.mp h).1.1
  omega

theorem calculate_wide {α : Type} [DataT α] (N : Int) (junk : α) (order : List Int) (data query : List α) {m r : Int} (hm : 0 ≤ m)
    (hr : m ≤ r) (x : Int × α × Int) : calculateWith N junk order data query m r ≠ .ok x := by
  intro h
  unfold calculateWith at h
  obtain ⟨Q, h, _⟩ := Res.bind_eq_ok.mp h
  unfold prepare at h
  obtain ⟨s, _, h⟩ := Res.bind_eq_ok.mp h
  obtain ⟨q, _, h⟩ := Res.bind_eq_ok.mp h
  obtain ⟨lu, h, _⟩ := Res.bind_eq_ok.mp h
  exact lemire_wide hm hr lu h

/-! ## Five values -/

theorem znorm_of {w z : List ℝ} {a d : ℝ} (ha : average w = a) (hd : (w.map fun x => (x - a) ^ 2).sum / w.length = d ^ 2) (hd0 : 0 ≤ d)
    (hz : w.map (fun x => (x - a) / d) = z) : znorm w = z := by
  have : stdev w = d := by
    unfold stdev
    rw [ha, hd, Real.sqrt_sq hd0]
  unfold znorm
  rw [this, ha, hz]

theorem zq5 : znorm [0, 0, 1, 0, 0] = [-1 / 2, -1 / 2, 2, -1 / 2, -1 / 2] :=
  znorm_of (a := 1 / 5) (d := 2 / 5) (by norm_num [average]) (by norm_num) (by norm_num) (by norm_num)

theorem zw0 : znorm [0, 0, 0, 0, -1] = [1 / 2, 1 / 2, 1 / 2, 1 / 2, -2] :=
  znorm_of (a := -1 / 5) (d := 2 / 5) (by norm_num [average]) (by norm_num) (by norm_num) (by norm_num)

theorem zw1 : znorm [0, 0, 0, -1, -2] = [3 / 4, 3 / 4, 3 / 4, -1 / 2, -7 / 4] :=
  znorm_of (a := -3 / 5) (d := 4 / 5) (by norm_num [average]) (by norm_num) (by norm_num) (by norm_num)

theorem least0 : IsLeast (warpCosts 0 (znorm [0, 0, 0, 0, -1]) (znorm [0, 0, 1, 0, 0])) (15 / 2) := by
  rw [zw0, zq5]
  have h := dp_isLeast (r := 0) [1 / 2, 1 / 2, 1 / 2, 1 / 2, -2] [-1 / 2, -1 / 2, 2, -1 / 2, -1 / 2] (by unfold inB; simp)
  convert h using 1
  norm_num [dp, ecost, inB, List.getD]

theorem least1 : IsLeast (warpCosts 0 (znorm [0, 0, 0, -1, -2]) (znorm [0, 0, 1, 0, 0])) (25 / 4) := by
  rw [zw1, zq5]
  have h := dp_isLeast (r := 0) [3 / 4, 3 / 4, 3 / 4, -1 / 2, -7 / 4] [-1 / 2, -1 / 2, 2, -1 / 2, -1 / 2] (by unfold inB; simp)
  convert h using 1
  norm_num [dp, ecost, inB, List.getD]

/-- The data of the counterexample. -/
abbrev data5 : List ℝ := [0, 0, 0, 0, -1, -2]

/-- Its query. -/
abbrev query5 : List ℝ := [0, 0, 1, 0, 0]

theorem kim_w1 {t : List Ex} {j : Int} {μ σ : Ex} (h : Holds t j μ σ (znorm [0, 0, 0, -1, -2])) :
    lbKim t (fins (znorm query5)) j (5 : ℕ) μ σ (F.fin (15 / 2)) = .ok (F.fin (125 / 16)) := by
  unfold Holds at h
  rw [zw1] at h
  rw [zq5]
  have g : ∀ (z : Int) (k : ℕ) (y : ℝ), z = j + k → k < 5 → [3 / 4, 3 / 4, 3 / 4, -1 / 2, -7 / 4].getD k 0 = y → zAt t μ σ z = .ok (F.fin y) := by
    intro z k y e hk hy
    rw [e, h k hk, hy]
  unfold lbKim
  rw [g j 0 (3 / 4) (by omega) (by omega) rfl, g (((5 : ℕ) : Int) - 1 + j) 4 (-7 / 4) (by omega) (by omega) rfl,
    g (j + 1) 1 (3 / 4) (by omega) (by omega) rfl, g (((5 : ℕ) : Int) - 2 + j) 3 (-1 / 2) (by omega) (by omega) rfl,
    g (j + 2) 2 (3 / 4) (by omega) (by omega) rfl, g (((5 : ℕ) : Int) - 3 + j) 2 (3 / 4) (by omega) (by omega) rfl]
  have gq : ∀ (z : Int) (k : ℕ) (y : ℝ), z = k → k < 5 → [-1 / 2, -1 / 2, 2, -1 / 2, -1 / 2].getD k 0 = y →
      vget (fins [-1 / 2, -1 / 2, 2, -1 / 2, -1 / 2] : List Ex) z = .ok (F.fin y) := by
    intro z k y e hk hy
    rw [e, vget_fins (by simpa using hk), hy]
  rw [gq 0 0 (-1 / 2) (by omega) (by omega) rfl, gq (((5 : ℕ) : Int) - 1) 4 (-1 / 2) (by omega) (by omega) rfl,
    gq 1 1 (-1 / 2) (by omega) (by omega) rfl, gq (((5 : ℕ) : Int) - 2) 3 (-1 / 2) (by omega) (by omega) rfl,
    gq 2 2 2 (by omega) (by omega) rfl, gq (((5 : ℕ) : Int) - 3) 2 2 (by omega) (by omega) rfl]
  simp only [Res.bind_ok, distM_exact, add_fin, Rounding.exact_f, minM_fin, Res.pure_eq, ge, le_fin]
  norm_num

theorem kim_w0 {t : List Ex} {j : Int} {μ σ : Ex} (h : Holds t j μ σ (znorm [0, 0, 0, 0, -1])) (b : Ex) :
    (lbKim t (fins (znorm query5)) j (5 : ℕ) μ σ b).Ensures fun v => ∃ x, v = F.fin x ∧ x < 10 ^ 20 := by
  refine (lbKim_spec (by simp) (by simp) (by omega) h b).mono ?_
  rintro v ⟨x, rfl, hx⟩
  refine ⟨x, rfl, hx.trans_lt ?_⟩
  rw [zw0, zq5]
  norm_num [ends0, front1, back1, front2, back2, sq, List.getD]

theorem varies_w0 : Varies [0, 0, 0, 0, -1] := ⟨0, by simp, -1, by simp, by norm_num⟩

theorem varies_w1 : Varies [0, 0, 0, -1, -2] := ⟨0, by simp, -1, by simp, by norm_num⟩

theorem varies_q5 : Varies query5 := ⟨0, by simp, 1, by simp, by norm_num⟩

/-- Kim's bound discards the nearer one of the two windows. -/
theorem five_fails {N : ℕ} (hN : 5 ≤ N) (hdot : N - 5 + 1 ≤ 1000000) (junk : Ex) {o : List ℕ} (ho : o.Perm (List.range 5)) :
    calculateWith N junk (o.map Int.ofNat) (fins data5) (fins query5) (5 : ℕ) (0 : ℕ) = .ok (0, F.fin (15 / 2), 6) := by
  obtain ⟨Q, hp, hQ⟩ := prepare_spec (m := 5) (r := 0) (query := query5) (by omega) (by simp) (by simpa using varies_q5) (by omega) junk ho
  have et : query5.take 5 = query5 := rfl
  rw [et] at hQ
  obtain ⟨loc, v, h1, h2⟩ := search_spec (data := data5)
    (G := fun p v loc => loc = 0 ∧ v = if p = 0 then 10 ^ 20 else 15 / 2) hQ.hm hQ.hr (by omega) ⟨rfl, by simp⟩ (by
      intro p hp5
      have hp2 : p = 0 ∨ p = 1 := by
        simp at hp5
        omega
      rcases hp2 with rfl | rfl
      · have ew : windowAt data5 0 5 = [0, 0, 0, 0, -1] := rfl
        rw [ew]
        rintro s j off lBuff uBuff Lb Ub v hs hLb hUb ht hl hu hLU hv ⟨hloc, rfl⟩
        rw [if_pos rfl] at hv
        refine (candidate_core hQ (by omega) rfl varies_w0 hs hLb hUb ht hl hu hLU hv le_rfl least0 ?_).mono ?_
        · refine (kim_w0 (holds_window rfl varies_w0 ht) _).mono ?_
          rintro _ ⟨x, rfl, hx⟩
          exact ⟨x, rfl, Or.inl hx⟩
        · rintro s' ⟨h0, ⟨_, h2, h3⟩ | ⟨h1, _⟩⟩
          · exact ⟨h0, 15 / 2, h2, by simpa using h3, by simp⟩
          · exfalso
            norm_num at h1
      · have ew : windowAt data5 1 5 = [0, 0, 0, -1, -2] := rfl
        rw [ew]
        rintro s j off lBuff uBuff Lb Ub v hs hLb hUb ht hl hu hLU hv ⟨hloc, rfl⟩
        rw [if_neg (by omega)] at hv
        have hk := kim_w1 (holds_window rfl varies_w1 ht)
        unfold ucrCandidate
        rw [hQ.hq, hQ.hm, hv, hk]
        simp only [Res.bind_ok]
        rw [if_neg (by rw [lt_fin]; norm_num), Res.pure_eq, Res.ensures_ok]
        exact ⟨⟨hs, rfl, rfl, rfl⟩, 15 / 2, hv, hloc, by simp⟩) (by omega) hN hdot hp
  obtain ⟨rfl, rfl⟩ := h2
  rw [h1]
  simp

/-! ## Constant queries -/

theorem distM_nan_right (x : Ex) : distM x (F.nan : Ex) = F.nan := by cases x <;> rfl

theorem div_zero_nan (x : ℝ) : div (sub (F.fin x) (F.fin x)) (F.fin 0) = (F.nan : Ex) := by
  simp [DataT.div, F.div, F.infSign]

/-- The lower bound of a window is NaN if the query is. -/
theorem candidate_nan_query {Q : UcrQuery Ex} (hm : 3 ≤ m) (hQm : Q.m = m) (hQq : Q.q = List.replicate m F.nan) {s : UcrState Ex}
    {j off pos : Int} {lBuff uBuff : List Ex} {mean std : Ex} (hz : ∀ k : ℕ, k < m → ∃ x, zAt s.t mean std (j + k) = .ok x) :
    ucrCandidate Q lBuff uBuff mean std j off pos s = .ok s := by
  have g : ∀ (z : Int) (k : ℕ), z = j + k → k < m → ∃ x, zAt s.t mean std z = .ok x := by
    intro z k e hk
    rw [e]
    exact hz k (by omega)
  have gq : ∀ (z : Int) (k : ℕ), z = k → k < m → vget (List.replicate m (F.nan : Ex)) z = .ok F.nan := by
    intro z k e hk
    rw [e]
    exact vget_of_getElem? (by omega) (by simp [hk])
  have hk : lbKim s.t Q.q j Q.m mean std s.bsf = .ok F.nan := by
    rw [hQq, hQm]
    unfold lbKim
    obtain ⟨x0, e0⟩ := g j 0 (by omega) (by omega)
    obtain ⟨y0, f0⟩ := g ((m : Int) - 1 + j) (m - 1) (by omega) (by omega)
    obtain ⟨x1, e1⟩ := g (j + 1) 1 (by omega) (by omega)
    obtain ⟨y1, f1⟩ := g ((m : Int) - 2 + j) (m - 2) (by omega) (by omega)
    obtain ⟨x2, e2⟩ := g (j + 2) 2 (by omega) (by omega)
    obtain ⟨y2, f2⟩ := g ((m : Int) - 3 + j) (m - 3) (by omega) (by omega)
    rw [e0, f0, e1, f1, e2, f2, gq 0 0 (by omega) (by omega), gq ((m : Int) - 1) (m - 1) (by omega) (by omega),
      gq 1 1 (by omega) (by omega), gq ((m : Int) - 2) (m - 2) (by omega) (by omega), gq 2 2 (by omega) (by omega),
      gq ((m : Int) - 3) (m - 3) (by omega) (by omega)]
    simp [distM_nan_right, add_nan, ge_nan]
  unfold ucrCandidate
  rw [hk]
  simp

theorem prepare_const {query : List ℝ} (hm : 1 ≤ m) (hq : m ≤ query.length) (hv : ¬ Varies (query.take m)) (hr : r < m) (junk : Ex)
    {o : List ℕ} (ho : o.Perm (List.range m)) :
    (prepare junk (o.map Int.ofNat) (fins query) m r).Ensures fun Q => Q.m = m ∧ Q.r = r ∧ Q.q = List.replicate m F.nan := by
  have hl : (query.take m).length = m := by simp; omega
  have hol : o.length = m := by simpa using ho.length_eq
  have homem : ∀ (i : ℕ) (hi : i < o.length), o[i] < m := by
    intro i hi
    have := ho.mem_iff.mp (List.getElem_mem hi)
    simpa using this
  have hne : query.take m ≠ [] := by
    intro h
    rw [h] at hl
    simp at hl
    omega
  unfold prepare
  simp only [Int.toNat_natCast]
  refine Res.Ensures.bind (readQuery_spec hq (by simp)) ?_
  rintro ⟨q, ex, ex2, rest⟩ ⟨h1, h2, h3⟩
  dsimp only at h1 h2 h3 ⊢
  subst h1 h2 h3
  generalize query.take m = w at *
  have e1 := meanOf_eq hne
  have e2 := stdOf_eq hne
  rw [hl] at e1 e2
  rw [e1, e2, const_stdev hv]
  have hnorm : (forInt 0 (m : Int) (fins w : List Ex) fun i q => do
      let x ← vget q i
      vset q i (div (sub x (F.fin (average w))) (F.fin 0))) = .ok (List.replicate m F.nan) := by
    apply Res.Ensures.eq_ok
    refine Res.Ensures.mono (forInt_ensures (fun i q => q.length = m ∧
      (∀ k : ℕ, k < m → (k : Int) < i → q[k]? = some F.nan) ∧
      ∀ k : ℕ, k < m → i ≤ k → q[k]? = some (F.fin (average w))) (by omega)
      ⟨by simpa using hl, by intro k _ hk; omega, ?_⟩ ?_) ?_
    · intro k hk _
      have hkw : k < w.length := by omega
      rw [← const_mean hv (List.getElem_mem hkw)]
      simp [fins, hkw]
    · rintro i q h1 h2 ⟨a1, a2, a3⟩
      obtain ⟨i, rfl⟩ : ∃ n : ℕ, i = n := ⟨i.toNat, by omega⟩
      rw [vget_of_getElem? (by omega) (a3 i (by omega) le_rfl)]
      simp only [Res.bind_ok]
      rw [vset_nat _ (by omega), Res.ensures_ok, div_zero_nan]
      refine ⟨by simpa using a1, ?_, ?_⟩
      · intro k hk hki
        by_cases e : k = i
        · subst e
          rw [List.getElem?_set_self (by omega)]
        · rw [List.getElem?_set_ne (fun e' => e e'.symm)]
          exact a2 k hk (by omega)
      · intro k hk hki
        rw [List.getElem?_set_ne (by omega)]
        exact a3 k hk (by omega)
    · rintro q ⟨a1, a2, _⟩
      rw [List.eq_replicate_iff]
      refine ⟨a1, ?_⟩
      intro b hb
      obtain ⟨k, hk, rfl⟩ := List.mem_iff_getElem.mp hb
      have := a2 k (by omega) (by omega)
      rw [List.getElem?_eq_getElem hk] at this
      exact Option.some.inj this
  rw [hnorm]
  simp only [Res.bind_ok]
  obtain ⟨⟨l, u⟩, h4, ⟨hl1, _⟩, ⟨hu1, _⟩⟩ := lemire_spec (t := List.replicate m (F.nan : Ex)) (v := fun _ => (0 : ℕ))
    (fun i j hi hj => ⟨fun _ => le_refl _, fun _ => le_refl _⟩) (r := r) (l0 := List.replicate m junk) (u0 := List.replicate m junk) (by simp; omega) (by simp) (by simp)
  rw [len_replicate] at h4
  rw [h4]
  simp only [Res.bind_ok]
  simp only [List.length_replicate] at hl1 hu1
  refine Res.Ensures.bind (P := fun _ => True) ?_ (fun _ _ => by simp)
  refine Res.Ensures.mono (forInt_ensures (fun _ s => s.1.length = m ∧ s.2.1.length = m ∧ s.2.2.length = m) (by omega)
    ⟨by simp, by simp, by simp⟩ ?_) (fun _ _ => trivial)
  rintro i s h1 h2 ⟨a1, a2, a3⟩
  obtain ⟨i, rfl⟩ : ∃ n : ℕ, i = n := ⟨i.toNat, by omega⟩
  have hi : i < o.length := by omega
  have hoi := homem i hi
  have hord : vget (o.map Int.ofNat) (i : Int) = .ok (o[i] : Int) := by
    rw [vget_nat (by simpa using hi)]
    simp
  rw [hord]
  simp only [Res.bind_ok]
  rw [vget_nat (by simpa using hoi), vget_nat (by omega), vget_nat (by omega)]
  simp only [Res.bind_ok]
  rw [vset_nat _ (by omega)]
  simp only [Res.bind_ok]
  rw [vset_nat _ (by omega)]
  simp only [Res.bind_ok]
  rw [vset_nat _ (by omega)]
  simp only [Res.bind_ok, Res.pure_eq, Res.ensures_ok]
  exact ⟨by simpa using a1, by simpa using a2, by simpa using a3⟩

/-- A constant query: nothing is found, and location 0 is reported. -/
theorem const_query {N : ℕ} {data query : List ℝ} (hm : 3 ≤ m) (hr : r < m) (hN : m ≤ N) (hdot : N - m + 1 ≤ 1000000)
    (hq : m ≤ query.length) (hv : ¬ Varies (query.take m)) (junk : Ex) {o : List ℕ} (ho : o.Perm (List.range m)) :
    calculateWith N junk (o.map Int.ofNat) (fins data) (fins query) m r =
      .ok (0, F.fin (10 ^ 20), ((max data.length (m - 1) : ℕ) : Int)) := by
  obtain ⟨Q, hp, hQm, hQr, hQq⟩ := prepare_const (by omega) hq hv hr junk ho
  obtain ⟨loc, v, h1, rfl, rfl⟩ := search_spec (data := data) (G := fun _ v loc => loc = 0 ∧ v = 10 ^ 20) hQm hQr (by omega)
    ⟨rfl, rfl⟩ (by
      rintro p hpm s j off lBuff uBuff Lb Ub v hs hLb hUb ht hl hu hLU hv ⟨hloc, rfl⟩
      rw [candidate_nan_query hm hQm hQq, Res.ensures_ok]
      · exact ⟨⟨hs, rfl, rfl, rfl⟩, _, hv, hloc, rfl⟩
      · intro k hk
        unfold zAt
        rw [ht k hk]
        exact ⟨_, rfl⟩) hr hN hdot hp
  exact h1

end Onex
