import Verif.Proofs.UcrSafe
import Verif.Proofs.Ucr32
import Verif.Proofs.UcrEdge

/-!
# The UCR search outside its limits
-/

namespace Onex
open DataT Spec

set_option linter.unusedSectionVars false

/-! ## Queries longer than a chunk -/

section long
variable {α : Type} [DataT α]

theorem fill_long_ok {N m : Int} {b rest : List α} (hb : (b.length : Int) = N) (h : (rest.length : Int) ≤ N ∨ m = N + 1) :
    (fillFirst N m 0 b rest).Def := by
  unfold fillFirst
  rw [if_pos rfl]
  by_cases hm0 : 0 ≤ m - 1
  · refine Res.Def.of (forInt_ensures (fun k (s : List α × List α) => (s.1.length : Int) = N ∧ (s.2.length : Int) = Max.max ((rest.length : Int) - k) 0)
      hm0 ⟨hb, by dsimp only; omega⟩ ?_)
    rintro k ⟨b', rest'⟩ k0 k1 ⟨h1, h2⟩
    dsimp only at h1 h2 ⊢
    cases rest' with
    | nil =>
      refine ⟨_, rfl, h1, ?_⟩
      simp only [List.length_nil] at h2 ⊢
      omega
    | cons d rest' =>
      simp only [List.length_cons] at h2 ⊢
      refine (vset_def d k0 (by omega)).bind fun b'' h3 => ⟨_, rfl, ?_⟩
      dsimp only
      omega
  · rw [forInt_of_le (by omega)]
    exact ⟨_, rfl, trivial⟩

theorem fill_long_ub {N m : Int} {b rest : List α} (hN : 0 ≤ N) (hm : N + 1 < m) (hb : (b.length : Int) = N) (h : N < rest.length) (y : List α × List α) :
    fillFirst N m 0 b rest ≠ .ok y := by
  intro e
  unfold fillFirst at e
  rw [if_pos rfl] at e
  have key := forInt_okInv (fun k (s : List α × List α) => (s.1.length : Int) = N ∧
    (s.2.length : Int) = Max.max ((rest.length : Int) - k) 0 ∧ Min.min k (rest.length : Int) ≤ N)
    (by omega) ⟨hb, by dsimp only; omega, by omega⟩ ?_ e
  · omega
  · rintro k ⟨b', rest'⟩ s' k0 k1 ⟨h1, h2, h3⟩ hs'
    dsimp only at h1 h2 hs'
    cases rest' with
    | nil =>
      cases hs'
      simp only [List.length_nil] at h2 ⊢
      omega
    | cons d rest' =>
      simp only [List.length_cons] at h2 hs'
      obtain ⟨b'', h4, h5⟩ := Res.bind_eq_ok.mp hs'
      cases h5
      have h6 := vset_len h4
      have h7 := (vset_eq_ok.mp h4).1
      simp only [len] at h6 h7
      dsimp only
      omega

theorem calculate_long_ok {N m r : ℕ} {junk : α} {order : List Int} {data query : List α} (ho : Indices order m) (hm : N < m) (hr : r < m)
    (h : data.length ≤ N ∨ m = N + 1) : calculateWith N junk order data query m r = .ok (0, infTrillion, (m : Int) - 1) := by
  obtain ⟨Q, e, hQ⟩ := prepare_def (junk := junk) (file := query) ho hr
  unfold calculateWith
  rw [e]
  simp only [Res.bind_ok]
  obtain ⟨⟨b, rest⟩, e1, _⟩ := fill_long_ok (N := (N : Int)) (m := (m : Int)) (b := List.replicate (N : Int).toNat junk) (rest := data) (by simp)
    (by omega)
  unfold ucrLoop
  rw [hQ.hm]
  dsimp only
  rw [e1]
  simp only [Res.bind_ok]
  unfold fillRest
  rw [forBrk_of_le (by omega)]
  simp

theorem calculate_long_ub {N m r : ℕ} {junk : α} {order : List Int} {data query : List α} (hm : N + 1 < m)
    (h : N < data.length) (y : Int × α × Int) : calculateWith N junk order data query m r ≠ .ok y := by
  intro hy
  unfold calculateWith at hy
  obtain ⟨Q, e, hy⟩ := Res.bind_eq_ok.mp hy
  obtain ⟨x, hx, _⟩ := Res.bind_eq_ok.mp hy
  have hQ : Q.m = m := by
    unfold prepare at e
    obtain ⟨_, _, e⟩ := Res.bind_eq_ok.mp e
    obtain ⟨_, _, e⟩ := Res.bind_eq_ok.mp e
    obtain ⟨_, _, e⟩ := Res.bind_eq_ok.mp e
    obtain ⟨_, _, e⟩ := Res.bind_eq_ok.mp e
    cases e
    rfl
  unfold ucrLoop at hx
  rw [hQ] at hx
  obtain ⟨f, hf, _⟩ := Res.bind_eq_ok.mp hx
  exact fill_long_ub (by omega) (by omega) (by simp) (by dsimp only; omega) f hf

end long

/-! ## Queries of one or two values -/

/-- Small, or not a number. -/
def Sm (c : ℝ) (x : Ex) : Prop := x = F.nan ∨ ∃ y : ℝ, x = F.fin y ∧ |y| ≤ c

theorem Sm.distM {c : ℝ} {x y : Ex} (hx : Sm c x) (hy : Sm c y) : Sm (4 * c ^ 2) (distM x y) := by
  rcases hx with rfl | ⟨x, rfl, hx⟩
  · exact Or.inl (distM_nan y)
  rcases hy with rfl | ⟨y, rfl, hy⟩
  · exact Or.inl (distM_nan_right _)
  refine Or.inr ⟨_, distM_exact x y, ?_⟩
  rw [abs_le] at hx hy
  rw [abs_of_nonneg (by positivity)]
  nlinarith

theorem Sm.add {c d : ℝ} {x y : Ex} (hx : Sm c x) (hy : Sm d y) : Sm (c + d) (DataT.add x y) := by
  rcases hx with rfl | ⟨x, rfl, hx⟩
  · exact Or.inl (add_nan y)
  rcases hy with rfl | ⟨y, rfl, hy⟩
  · exact Or.inl rfl
  refine Or.inr ⟨x + y, rfl, (abs_add_le x y).trans (add_le_add hx hy)⟩

theorem Sm.minM {c : ℝ} {x y : Ex} (hx : Sm c x) (hy : Sm c y) : Sm c (minM x y) := by
  unfold Onex.minM
  split <;> assumption

theorem Sm.not_ge {c : ℝ} {x : Ex} (hx : Sm c x) (hc : c < 10 ^ 20) : ¬ (ge x (infTrillion : Ex) = true) := by
  rcases hx with rfl | ⟨x, rfl, hx⟩
  · rw [ge_nan]
    simp
  · rw [inf_fin]
    intro h
    have h1 : (10 ^ 20 : ℝ) ≤ x := by simpa [ge] using h
    have := le_abs_self x
    linarith

theorem znorm_small (w : List ℝ) (hw : w.length ≤ 2) {k : ℕ} (hk : k < w.length) (hv : Varies w) : |(znorm w).getD k 0| ≤ 2 := by
  rw [znorm_getD w hk]
  have hs := stdev_pos.mpr hv
  have hmem : w.getD k 0 ∈ w := by
    rw [List.getD_eq_getElem?_getD, List.getElem?_eq_getElem hk]
    exact List.getElem_mem hk
  generalize w.getD k 0 = z at *
  have key : (z - average w) ^ 2 ≤ (w.map fun x => (x - average w) ^ 2).sum := by
    refine List.single_le_sum ?_ _ (List.mem_map.mpr ⟨z, hmem, rfl⟩)
    intro u hu
    obtain ⟨v, _, rfl⟩ := List.mem_map.mp hu
    positivity
  have hl : (0 : ℝ) < w.length := by
    have : 0 < w.length := by omega
    exact_mod_cast this
  have hl2 : (w.length : ℝ) ≤ 2 := by exact_mod_cast hw
  have hsq : stdev w ^ 2 * w.length = (w.map fun x => (x - average w) ^ 2).sum := by
    unfold stdev
    rw [Real.sq_sqrt (var_nonneg _ _)]
    field_simp
  rw [abs_div, abs_of_pos hs, div_le_iff₀ hs]
  apply abs_le_of_sq_le_sq _ (by positivity)
  nlinarith [sq_nonneg (stdev w)]

/-- With fewer than three values Kim's bound reads outside the query. -/
theorem kim_short {t q : List Ex} {m : ℕ} {j : Int} {mean std : Ex} (hm1 : 1 ≤ m) (hm : m ≤ 2) (hq : q.length = m)
    (ht : ∀ k : Int, 0 ≤ k → k < 2 * m → ∃ z, zAt t mean std k = .ok z ∧ Sm 2 z) (hj : 0 ≤ j) (hj' : j < m)
    (hz : ∀ k : ℕ, k < m → ∃ z, q[k]? = some z ∧ Sm 2 z) (v : Ex) :
    lbKim t q j m mean std infTrillion ≠ .ok v := by
  intro h
  unfold lbKim at h
  have gq : ∀ i : Int, 0 ≤ i → i < m → ∃ z, vget q i = .ok z ∧ Sm 2 z := by
    intro i h0 h1
    obtain ⟨z, h2, h3⟩ := hz i.toNat (by omega)
    exact ⟨z, vget_of_getElem? h0 h2, h3⟩
  have bq : ∀ (i : Int) (z : Ex), vget q i = .ok z → i < m := by
    intro i z e
    have := (vget_lt e).2
    simp only [len] at this
    omega
  obtain ⟨x0, e1, s1⟩ := ht j (by omega) (by omega)
  obtain ⟨y0, e2, s2⟩ := ht (m - 1 + j) (by omega) (by omega)
  obtain ⟨q0, e3, s3⟩ := gq 0 (by omega) (by omega)
  obtain ⟨qe, e4, s4⟩ := gq (m - 1) (by omega) (by omega)
  rw [e1, e2, e3, e4] at h
  simp only [Res.bind_ok] at h
  have l0 := (s1.distM s3).add (s2.distM s4)
  rw [if_neg (l0.not_ge (by norm_num))] at h
  obtain ⟨x1, e5, s5⟩ := ht (j + 1) (by omega) (by omega)
  rw [e5] at h
  simp only [Res.bind_ok] at h
  obtain ⟨q1, e6, h⟩ := Res.bind_eq_ok.mp h
  have hm2 : m = 2 := by have := bq _ _ e6; omega
  subst hm2
  have s6 : Sm 2 q1 := by
    obtain ⟨z, h2, h3⟩ := gq 1 (by omega) (by omega)
    rw [e6] at h2
    cases h2
    exact h3
  have l1 := l0.add (((s5.distM s3).minM (s1.distM s6)).minM (s5.distM s6))
  rw [if_neg (l1.not_ge (by norm_num))] at h
  obtain ⟨y1, e7, s7⟩ := ht ((2 : ℕ) - 2 + j) (by omega) (by omega)
  obtain ⟨qf, e8, s8⟩ := gq ((2 : ℕ) - 2) (by omega) (by omega)
  rw [e7, e8] at h
  simp only [Res.bind_ok] at h
  have l2 := l1.add (((s7.distM s4).minM (s2.distM s8)).minM (s7.distM s8))
  rw [if_neg (l2.not_ge (by norm_num))] at h
  obtain ⟨x2, _, h⟩ := Res.bind_eq_ok.mp h
  obtain ⟨q2, e9, _⟩ := Res.bind_eq_ok.mp h
  have := bq _ _ e9
  omega

/-- The prepared query is small or not a number. -/
theorem prepare_small {m r : ℕ} {query : List ℝ} (hm1 : 1 ≤ m) (hm : m ≤ 2) (hq : m ≤ query.length) (hr : r < m) (junk : Ex) {o : List ℕ}
    (ho : o.Perm (List.range m)) :
    (prepare junk (o.map Int.ofNat) (fins query) m r).Ensures fun Q => Q.m = m ∧ Q.q.length = m ∧ ∀ k : ℕ, k < m → ∃ z, Q.q[k]? = some z ∧ Sm 2 z := by
  have hl : (query.take m).length = m := by simp; omega
  by_cases hv : Varies (query.take m)
  · refine (prepare_spec hm1 hq hv hr junk ho).mono fun Q hQ => ⟨hQ.hm, by rw [hQ.hq, fins_length, hQ.len], fun k hk => ?_⟩
    refine ⟨F.fin ((znorm (query.take m)).getD k 0), ?_, Or.inr ⟨_, rfl, znorm_small _ (by omega) (by omega) hv⟩⟩
    rw [hQ.hq]
    have : k < (znorm (query.take m)).length := by rw [znorm_length]; omega
    simp only [fins, List.getElem?_map, List.getD_eq_getElem?_getD, List.getElem?_eq_getElem this, Option.map_some, Option.getD_some]
  · refine (prepare_const hm1 hq hv hr junk ho).mono fun Q hQ => ⟨hQ.1, by rw [hQ.2.2, List.length_replicate], fun k hk => ⟨F.nan, ?_, Or.inl rfl⟩⟩
    rw [hQ.2.2]
    simp [hk]

/-- A ring with the window in it twice. -/
theorem ring_small {w : List ℝ} (hw : w.length ≤ 2) (k : Int) (h0 : 0 ≤ k) (hk : k < 2 * w.length) :
    ∃ z, zAt (fins (w ++ w) : List Ex) (F.fin (average w)) (F.fin (stdev w)) k = .ok z ∧ Sm 2 z := by
  obtain ⟨i, hi, e⟩ : ∃ i : ℕ, i < w.length ∧ vget (fins (w ++ w) : List Ex) k = .ok (F.fin (w.getD i 0)) := by
    obtain ⟨k, rfl⟩ := Int.eq_ofNat_of_zero_le h0
    have hl : k < (w ++ w).length := by simp; omega
    by_cases h : k < w.length
    · refine ⟨k, h, ?_⟩
      rw [vget_fins hl]
      simp [List.getD, List.getElem?_append, h]
    · refine ⟨k - w.length, by omega, ?_⟩
      rw [vget_fins hl]
      simp [List.getD, List.getElem?_append, h]
  by_cases hv : Varies w
  · exact ⟨_, zAt_eq e (stdev_pos.mpr hv).ne', Or.inr ⟨_, rfl, by rw [← znorm_getD w hi]; exact znorm_small w hw hi hv⟩⟩
  · have hmem : w.getD i 0 ∈ w := by
      rw [List.getD_eq_getElem?_getD, List.getElem?_eq_getElem hi]
      exact List.getElem_mem hi
    rw [const_mean hv hmem] at e
    rw [const_stdev hv]
    exact ⟨_, zAt_const e, Or.inl rfl⟩

theorem point_short {N : Int} {Q : UcrQuery Ex} {m : ℕ} {b l u : List Ex} {w : List ℝ} (hQm : Q.m = m) (hm1 : 1 ≤ m) (hm : m ≤ 2) (hql : Q.q.length = m)
    (hz : ∀ k : ℕ, k < m → ∃ z, Q.q[k]? = some z ∧ Sm 2 z) (hw : w.length = m) {i : Int} (hi : (m : Int) - 1 ≤ i) {s : UcrState Ex} {d : ℝ} {t t' : List Ex}
    (hd : vget b i = .ok (F.fin d)) (e1 : vset s.t (i.tmod m) (F.fin d) = .ok t) (e2 : vset t (i.tmod m + m) (F.fin d) = .ok t')
    (ht : t' = fins (w ++ w)) (hex : DataT.add s.ex (F.fin d) = F.fin w.sum) (hex2 : DataT.add s.ex2 (mul (F.fin d) (F.fin d)) = F.fin (w.map fun x => x * x).sum)
    (hb : s.bsf = infTrillion) (y : UcrState Ex) : ucrPoint N Q b l u 0 i s ≠ .ok y := by
  intro h
  have hne : w ≠ [] := by
    rintro rfl
    simp at hw
    omega
  unfold ucrPoint at h
  rw [hQm, hd] at h
  simp only [Res.bind_ok] at h
  rw [e1] at h
  simp only [Res.bind_ok] at h
  rw [e2] at h
  simp only [Res.bind_ok] at h
  rw [if_pos (by omega), hex, hex2, ht, ← hw, meanOf_eq hne, stdOf_eq hne] at h
  obtain ⟨s', h, _⟩ := Res.bind_eq_ok.mp h
  unfold ucrCandidate at h
  obtain ⟨v, h, _⟩ := Res.bind_eq_ok.mp h
  rw [hb, hQm] at h
  refine kim_short hm1 hm hql (fun k h0 h1 => ring_small (by omega) k h0 (by omega)) ?_ ?_ hz v h
  · exact Int.tmod_nonneg _ (by omega)
  · rw [hw]
    exact Int.tmod_lt_of_pos _ (by omega)

theorem calculate_short_ub {N m r : ℕ} {data query : List ℝ} (hm1 : 1 ≤ m) (hm : m ≤ 2) (hr : r < m) (hN : m ≤ N)
    (hq : m ≤ query.length) (hd : m ≤ data.length) (junk : Ex) {o : List ℕ} (ho : o.Perm (List.range m)) (y : Int × Ex × Int) :
    calculateWith N junk (o.map Int.ofNat) (fins data) (fins query) m r ≠ .ok y := by
  intro hy
  obtain ⟨Q, e, hQm, hql, hz⟩ := prepare_small hm1 hm hq hr junk ho
  unfold calculateWith at hy
  rw [e] at hy
  simp only [Res.bind_ok] at hy
  obtain ⟨x, hx, _⟩ := Res.bind_eq_ok.mp hy
  unfold ucrLoop at hx
  rw [hQm] at hx
  dsimp only at hx
  obtain ⟨⟨b1, rest1⟩, f1, a1, a2, a3⟩ := fillFirst_zero (data := data) (b := List.replicate (N : Int).toNat junk) hm1 hN (by simp)
  rw [f1] at hx
  simp only [Res.bind_ok] at hx
  dsimp only at a1 a2 a3
  subst a3
  obtain ⟨⟨b, rest, ep⟩, f2, c1, n, c2, c3, c4, c5⟩ := fillRest_spec hm1 hN a1 a2
  dsimp only at c1 c2 c3 c4
  subst c2
  rw [f2] at hx
  simp only [Res.bind_ok] at hx
  rw [if_neg (by omega)] at hx
  obtain ⟨⟨l, u⟩, _, hx⟩ := Res.bind_eq_ok.mp hx
  dsimp only at hx
  split at hx
  · cases hx
  obtain ⟨s, hs, _⟩ := Res.bind_eq_ok.mp hx
  have g0 : vget b 0 = .ok (F.fin (data.getD 0 0)) := vget_of_getElem? le_rfl (c3 0 (by omega) (by omega))
  rw [forInt_succ (by omega)] at hs
  obtain ⟨s1, h1, hs2⟩ := Res.bind_eq_ok.mp hs
  obtain rfl | rfl : m = 1 ∨ m = 2 := by omega
  · refine point_short (w := [data.getD 0 0]) hQm hm1 hm hql hz rfl (by omega) g0 rfl rfl ?_ ?_ ?_ rfl s1 h1
    · rfl
    · simp
    · simp
  · have g1 : vget b 1 = .ok (F.fin (data.getD 1 0)) := vget_of_getElem? (by omega) (c3 1 (by omega) (by omega))
    rw [forInt_succ (by omega)] at hs2
    obtain ⟨s2, h2, _⟩ := Res.bind_eq_ok.mp hs2
    unfold ucrPoint at h1
    rw [hQm, g0] at h1
    simp only [Res.bind_ok] at h1
    have k1 : vset (List.replicate (2 * ((2 : ℕ) : Int)).toNat junk) ((0 : Int).tmod ((2 : ℕ) : Int)) (F.fin (data.getD 0 0)) =
        .ok [F.fin (data.getD 0 0), junk, junk, junk] := rfl
    have k2 : vset [F.fin (data.getD 0 0), junk, junk, junk] ((0 : Int).tmod ((2 : ℕ) : Int) + ((2 : ℕ) : Int)) (F.fin (data.getD 0 0)) =
        .ok [F.fin (data.getD 0 0), junk, F.fin (data.getD 0 0), junk] := rfl
    rw [k1] at h1
    simp only [Res.bind_ok] at h1
    rw [k2] at h1
    simp only [Res.bind_ok] at h1
    rw [if_neg (by omega)] at h1
    cases h1
    refine point_short (w := [data.getD 0 0, data.getD 1 0]) hQm hm1 hm hql hz rfl (by omega) g1 rfl rfl ?_ ?_ ?_ rfl s2 h2
    · rfl
    · simp
    · simp

/-! ## Wide bands and the order of the query -/

theorem lemire32_wide {α : Type} [DataT α] {t l u : List α} {n r : Int} (hn : 0 ≤ n) (hr : n ≤ r) (x : List α × List α) : lowerUpperLemire32 t n r l u ≠ .ok x := by
  intro h
  unfold lowerUpperLemire32 at h
  obtain ⟨_, _, h⟩ := Res.bind_eq_ok.mp h
  obtain ⟨_, _, h⟩ := Res.bind_eq_ok.mp h
  obtain ⟨du, _, h⟩ := Res.bind_eq_ok.mp h
  obtain ⟨dl, _, h⟩ := Res.bind_eq_ok.mp h
  obtain ⟨s, _, h⟩ := Res.bind_eq_ok.mp h
  obtain ⟨_, _, h⟩ := Res.bind_eq_ok.mp h
  obtain ⟨_, _, h⟩ := Res.bind_eq_ok.mp h
  obtain ⟨s', h, _⟩ := Res.bind_eq_ok.mp h
  rw [forInt_succ (by omega)] at h
  obtain ⟨s1, h, _⟩ := Res.bind_eq_ok.mp h
  unfold lemireBody2_32 at h
  obtain ⟨_, _, h⟩ := Res.bind_eq_ok.mp h
  obtain ⟨_, _, h⟩ := Res.bind_eq_ok.mp h
  obtain ⟨uf, _, h⟩ := Res.bind_eq_ok.mp h
  obtain ⟨tu, _, h⟩ := Res.bind_eq_ok.mp h
  obtain ⟨u', h, _⟩ := Res.bind_eq_ok.mp h
  have := (vset_eq_ok.mp h).1.1
  omega

theorem calculate32_wide {α : Type} [DataT α] (junk : α) (order : List Int) (data query : List α) {m r : Int} (hm : 0 ≤ m)
    (hr : m ≤ r) (x : Int × α × Int) : calculate32 junk order data query m r ≠ .ok x := by
  intro h
  unfold calculate32 at h
  obtain ⟨Q, h, _⟩ := Res.bind_eq_ok.mp h
  unfold prepare32 at h
  obtain ⟨s, _, h⟩ := Res.bind_eq_ok.mp h
  obtain ⟨q, _, h⟩ := Res.bind_eq_ok.mp h
  obtain ⟨lu, h, _⟩ := Res.bind_eq_ok.mp h
  exact lemire32_wide hm hr lu h

theorem indices_perm {m : ℕ} {o : List ℕ} (ho : o.Perm (List.range m)) : Indices (o.map Int.ofNat) m := by
  intro i h0 h1
  obtain ⟨k, rfl⟩ := Int.eq_ofNat_of_zero_le h0
  have hl : o.length = m := by rw [ho.length_eq, List.length_range]
  have hk : k < o.length := by omega
  refine ⟨(o[k] : Int), vget_of_getElem? h0 (by simp [hk]), by omega, ?_⟩
  have := List.mem_range.mp (ho.mem_iff.mp (List.getElem_mem hk))
  omega

end Onex
