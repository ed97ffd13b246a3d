import Verif.Model.Ucr
import Verif.Proofs.Trillion
import Mathlib.Tactic.Choose
import Mathlib.Data.List.Range

/-!
# The lower bounds of the UCR search
-/

namespace Onex

open Spec DataT

abbrev Ex := F Rounding.exact

/-! ## Sums along a path -/

/-- If every index in `K` is met by a cell of `p` that costs at least `d` of it, then the sum of `d` is no more than the path. -/
theorem hit_sum {Z q : List ℝ} {p : List (ℕ × ℕ)} (f : ℕ × ℕ → ℕ) (d : ℕ → ℝ) (K : List ℕ) (hK : K.Nodup)
    (hit : ∀ k ∈ K, ∃ c, c ∈ p ∧ f c = k ∧ d k ≤ sq Z q c.1 c.2) : (K.map d).sum ≤ pathCost Z q p := by
  choose! g hg using hit
  have hn : (K.map g).Nodup := by
    refine List.Nodup.map_on ?_ hK
    intro x hx y hy e
    rw [← (hg x hx).2.1, ← (hg y hy).2.1, e]
  refine le_trans ?_ (cells_le (K.map g) hn ?_)
  · unfold pathCost
    rw [List.map_map]
    refine List.sum_le_sum ?_
    intro k hk
    exact (hg k hk).2.2
  · intro c hc
    obtain ⟨k, hk, rfl⟩ := List.mem_map.mp hc
    exact (hg k hk).1

variable {r m : ℕ}

/-- A path meets every row, -/
theorem hits_row {M N : ℕ} {p : List (ℕ × ℕ)} (hp : IsWarpPath r M N p) {k : ℕ} (hk : k ≤ M) : ∃ c ∈ p, c.1 = k := by
  refine chain_hits (fun c => c.1) k p (0, 0) (M, N) ?_ hp.head hp.last (by simp) hk
  refine hp.steps.imp ?_
  intro u v h
  rcases h with h | h | h <;> simp only [h] <;> omega

/-- and every column. -/
theorem hits_col {M N : ℕ} {p : List (ℕ × ℕ)} (hp : IsWarpPath r M N p) {k : ℕ} (hk : k ≤ N) : ∃ c ∈ p, c.2 = k := by
  refine chain_hits (fun c => c.2) k p (0, 0) (M, N) ?_ hp.head hp.last (by simp) hk
  refine hp.steps.imp ?_
  intro u v h
  rcases h with h | h | h <;> simp only [h] <;> omega

/-- `d` is, for every row, a bound on the cost of the cells of the band in that row. -/
def RowBound (r m : ℕ) (Z q : List ℝ) (d : ℕ → ℝ) : Prop := ∀ i j, i < m → j < m → inB r i j → d i ≤ sq Z q i j

def ColBound (r m : ℕ) (Z q : List ℝ) (d : ℕ → ℝ) : Prop := ∀ i j, i < m → j < m → inB r i j → d j ≤ sq Z q i j

variable {Z q : List ℝ} {d : ℕ → ℝ}

theorem rows_le (hm : 1 ≤ m) (hd : RowBound r m Z q d) {p : List (ℕ × ℕ)} (hp : IsWarpPath r (m - 1) (m - 1) p) (K : List ℕ)
    (hK : K.Nodup) (i : ℕ) (hi : ∀ k ∈ K, k < m) (hi' : ∀ k ∈ K, i ≤ k) :
    (K.map d).sum ≤ pathCost Z q (p.filter fun c => decide (i ≤ c.1)) := by
  refine hit_sum (fun c => c.1) d K hK ?_
  intro k hk
  have := hi k hk
  obtain ⟨c, hc, e⟩ := hits_row hp (k := k) (by omega)
  have hle := path_le hp c hc
  refine ⟨c, ?_, e, ?_⟩
  · rw [List.mem_filter]
    exact ⟨hc, by rw [e]; simpa using hi' k hk⟩
  · rw [← e]
    exact hd c.1 c.2 (by omega) (by omega) (hp.band c hc)

theorem cols_le (hm : 1 ≤ m) (hd : ColBound r m Z q d) {p : List (ℕ × ℕ)} (hp : IsWarpPath r (m - 1) (m - 1) p) (K : List ℕ)
    (hK : K.Nodup) (i : ℕ) (hi : ∀ k ∈ K, k < m) (hi' : ∀ k ∈ K, i + r ≤ k) :
    (K.map d).sum ≤ pathCost Z q (p.filter fun c => decide (i ≤ c.1)) := by
  refine hit_sum (fun c => c.2) d K hK ?_
  intro k hk
  have := hi k hk
  have := hi' k hk
  obtain ⟨c, hc, e⟩ := hits_col hp (k := k) (by omega)
  have hle := path_le hp c hc
  have hb := hp.band c hc
  refine ⟨c, ?_, e, ?_⟩
  · rw [List.mem_filter]
    exact ⟨hc, by simp only [decide_eq_true_eq]; omega⟩
  · rw [← e]
    exact hd c.1 c.2 (by omega) (by omega) hb

theorem filter_all (Z q : List ℝ) (p : List (ℕ × ℕ)) : pathCost Z q (p.filter fun c => decide (0 ≤ c.1)) = pathCost Z q p := by
  congr 1
  rw [List.filter_eq_self]
  simp

/-- Cumulated from the end, either kind of bound is what `dtw` needs to abandon early. -/
theorem validCb_of (hm : 1 ≤ m) (hZ : Z.length = m) (hq : q.length = m) (hd : RowBound r m Z q d ∨ ColBound r m Z q d) :
    ∀ i, i + r + 1 < m → ∀ p, IsWarpPath r (Z.length - 1) (q.length - 1) p →
      ((List.range' (i + r + 1) (m - (i + r + 1))).map d).sum ≤ pathCost Z q (p.filter fun c => decide (i < c.1)) := by
  intro i hi p hp
  rw [hZ, hq] at hp
  have h1 : ∀ k ∈ List.range' (i + r + 1) (m - (i + r + 1)), k < m := by
    intro k hk
    rw [List.mem_range'_1] at hk
    omega
  have h2 : ∀ k ∈ List.range' (i + r + 1) (m - (i + r + 1)), (i + 1) + r ≤ k := by
    intro k hk
    rw [List.mem_range'_1] at hk
    omega
  rcases hd with hd | hd
  · exact rows_le hm hd hp _ List.nodup_range' (i + 1) h1 (fun k hk => by have := h2 k hk; omega)
  · exact cols_le hm hd hp _ List.nodup_range' (i + 1) h1 h2

/-! ## Normalised values -/

theorem zAt_eq {t : List Ex} {k : Int} {x μ σ : ℝ} (h : vget t k = .ok (F.fin x)) (hσ : σ ≠ 0) :
    zAt t (F.fin μ) (F.fin σ) k = .ok (F.fin ((x - μ) / σ)) := by
  unfold zAt
  rw [h]
  simp [div_fin _ _ hσ]

/-- From position `j` on, the array `t` holds values which normalise to `Z`. -/
def Holds (t : List Ex) (j : Int) (mean std : Ex) (Z : List ℝ) : Prop :=
  ∀ k : ℕ, k < Z.length → zAt t mean std (j + k) = .ok (F.fin (Z.getD k 0))

theorem distM_exact (x y : ℝ) : distM (F.fin x : Ex) (F.fin y) = F.fin ((x - y) ^ 2) := by
  rw [distM_fin, ed_exact]

/-! ## Kim -/

theorem lbKim_spec {t : List Ex} {j : Int} {mean std : Ex} (hZ : Z.length = m) (hq : q.length = m) (hm : 3 ≤ m)
    (ht : Holds t j mean std Z) (b : Ex) :
    (lbKim t (fins q) j m mean std b).Ensures fun v => ∃ x, v = F.fin x ∧
      x ≤ ends0 Z q + front1 Z q + back1 Z q + front2 Z q + back2 Z q := by
  have g : ∀ (z : Int) (k : ℕ), z = j + k → k < m → zAt t mean std z = .ok (F.fin (Z.getD k 0)) := by
    intro z k e hk
    rw [e]
    exact ht k (by omega)
  have gq : ∀ (z : Int) (k : ℕ), z = k → k < m → vget (fins q : List Ex) z = .ok (F.fin (q.getD k 0)) := by
    intro z k e hk
    rw [e]
    exact vget_fins (by omega)
  unfold lbKim
  rw [g j 0 (by omega) (by omega), g ((m : Int) - 1 + j) (m - 1) (by omega) (by omega), g (j + 1) 1 (by omega) (by omega),
    g ((m : Int) - 2 + j) (m - 2) (by omega) (by omega), g (j + 2) 2 (by omega) (by omega),
    g ((m : Int) - 3 + j) (m - 3) (by omega) (by omega), gq 0 0 (by omega) (by omega), gq ((m : Int) - 1) (m - 1) (by omega) (by omega),
    gq 1 1 (by omega) (by omega), gq ((m : Int) - 2) (m - 2) (by omega) (by omega), gq 2 2 (by omega) (by omega),
    gq ((m : Int) - 3) (m - 3) (by omega) (by omega)]
  simp only [Res.bind_ok, distM_exact, add_fin, Rounding.exact_f, minM_fin, Res.pure_eq]
  have f1 := front1_nonneg (a := Z) (b := q)
  have b1 := back1_nonneg (a := Z) (b := q)
  have f2 := front2_nonneg (a := Z) (b := q)
  have b2 := back2_nonneg (a := Z) (b := q)
  have e0 : ends0 Z q = (Z.getD 0 0 - q.getD 0 0) ^ 2 + (Z.getD (m - 1) 0 - q.getD (m - 1) 0) ^ 2 := by
    unfold ends0 sq
    rw [hZ, hq]
  have e1 : front1 Z q = min (min ((Z.getD 1 0 - q.getD 0 0) ^ 2) ((Z.getD 0 0 - q.getD 1 0) ^ 2)) ((Z.getD 1 0 - q.getD 1 0) ^ 2) := by
    unfold front1 sq
    ac_rfl
  have e2 : back1 Z q = min (min ((Z.getD (m - 2) 0 - q.getD (m - 1) 0) ^ 2) ((Z.getD (m - 1) 0 - q.getD (m - 2) 0) ^ 2))
      ((Z.getD (m - 2) 0 - q.getD (m - 2) 0) ^ 2) := by
    unfold back1 sq
    rw [hZ, hq]
    ac_rfl
  have e3 : front2 Z q = min (min (min (min ((Z.getD 0 0 - q.getD 2 0) ^ 2) ((Z.getD 1 0 - q.getD 2 0) ^ 2))
      ((Z.getD 2 0 - q.getD 2 0) ^ 2)) ((Z.getD 2 0 - q.getD 1 0) ^ 2)) ((Z.getD 2 0 - q.getD 0 0) ^ 2) := by
    unfold front2 sq
    ac_rfl
  have e4 : back2 Z q = min (min (min (min ((Z.getD (m - 1) 0 - q.getD (m - 3) 0) ^ 2) ((Z.getD (m - 2) 0 - q.getD (m - 3) 0) ^ 2))
      ((Z.getD (m - 3) 0 - q.getD (m - 3) 0) ^ 2)) ((Z.getD (m - 3) 0 - q.getD (m - 2) 0) ^ 2)) ((Z.getD (m - 3) 0 - q.getD (m - 1) 0) ^ 2) := by
    unfold back2 sq
    rw [hZ, hq]
    ac_rfl
  rw [← e0, ← e1, ← e2, ← e3, ← e4]
  repeat' split
  all_goals
    rw [Res.ensures_ok]
    exact ⟨_, rfl, by linarith⟩

/-- Where the rings do not overlap, nothing the function returns exceeds the cost of a warping path. -/
theorem lbKim_le {t : List Ex} {j : Int} {mean std : Ex} (hZ : Z.length = m) (hq : q.length = m) (hm : 6 ≤ m)
    (ht : Holds t j mean std Z) (b : Ex) :
    (lbKim t (fins q) j m mean std b).Ensures fun v => ∃ x, v = F.fin x ∧
      ∀ p, IsWarpPath r (m - 1) (m - 1) p → x ≤ pathCost Z q p := by
  refine (lbKim_spec hZ hq (by omega) ht b).mono ?_
  rintro v ⟨x, rfl, hx⟩
  refine ⟨x, rfl, ?_⟩
  intro p hp
  refine hx.trans (three_rings (r := r) (by omega) (by omega) (by omega) ?_)
  rw [hZ, hq]
  exact hp

/-! ## Keogh -/

/-- The common shape of the two Keogh loops: add `d` of the next index, store it there, stop at `bsf`. -/
theorem keogh_loop {o : List ℕ} (ho : o.Perm (List.range m)) (d : ℕ → ℝ) (b : ℝ)
    (body : Int → Ex × List Ex → Res (Step (Ex × List Ex)))
    (hgo : ∀ (i : ℕ) (hi : i < o.length) (v : ℝ) (cb : List Ex), cb.length = m → v < b →
      body i (F.fin v, cb) = .ok (.next (F.fin (v + d o[i]), cb.set o[i] (F.fin (d o[i])))))
    (hstop : ∀ (i : Int) (v : ℝ) (cb : List Ex), b ≤ v → body i (F.fin v, cb) = .ok (.brk (F.fin v, cb)))
    (cb : List Ex) (hcb : cb.length = m) :
    (forBrk 0 (m : Int) (F.fin 0, cb) body).Ensures fun s => ∃ (v : ℝ) (K : List ℕ), s.1 = F.fin v ∧ s.2.length = m ∧
      v = (K.map d).sum ∧ K.Nodup ∧ (∀ k ∈ K, k < m) ∧ (v < b → ∀ k, k < m → s.2[k]? = some (F.fin (d k))) := by
  have hol : o.length = m := by simpa using ho.length_eq
  have hnd : o.Nodup := ho.nodup_iff.mpr List.nodup_range
  have hlt : ∀ k ∈ o, k < m := by
    intro k hk
    simpa using ho.mem_iff.mp hk
  have h := forBrk_ensures (lo := 0) (hi := (m : Int)) (s := ((F.fin 0, cb) : Ex × List Ex)) (body := body)
    (fun i s => s.1 = F.fin (((o.take i.toNat).map d).sum) ∧ s.2.length = m ∧
      ∀ k ∈ o.take i.toNat, s.2[k]? = some (F.fin (d k)))
    (fun s => ∃ (v : ℝ) (K : List ℕ), s.1 = F.fin v ∧ s.2.length = m ∧ v = (K.map d).sum ∧ K.Nodup ∧ (∀ k ∈ K, k < m) ∧ b ≤ v)
    (by omega) ⟨by simp, hcb, by simp⟩ (by
      rintro i ⟨v, c⟩ h1 h2 ⟨e1, e2, e3⟩
      obtain ⟨i, rfl⟩ : ∃ k : ℕ, i = k := ⟨i.toNat, by omega⟩
      simp only [Int.toNat_natCast] at e1 e2 e3
      subst e1
      rcases lt_or_ge ((o.take i).map d).sum b with hv | hv
      · have hi : i < o.length := by omega
        rw [hgo i hi _ c e2 hv, Res.ensures_ok]
        have et : ((i : Int) + 1).toNat = i + 1 := by omega
        dsimp only
        rw [et, ← List.take_append_getElem hi]
        refine ⟨by rw [List.map_append, List.sum_append]; simp only [List.map_cons, List.map_nil, List.sum_cons, List.sum_nil, _root_.add_zero], by simpa using e2, ?_⟩
        intro k hk
        have ho' : o[i] < c.length := by rw [e2]; exact hlt _ (List.getElem_mem hi)
        by_cases hk' : k = o[i]
        · subst hk'
          rw [List.getElem?_set_self ho']
        · rw [List.getElem?_set_ne (fun e => hk' e.symm)]
          rcases List.mem_append.mp hk with hk | hk
          · exact e3 k hk
          · simp only [List.mem_singleton] at hk
            exact absurd hk hk'
      · rw [hstop _ _ _ hv, Res.ensures_ok]
        exact ⟨_, o.take i, rfl, e2, rfl, hnd.sublist (List.take_sublist _ _),
          fun k hk => hlt k (List.mem_of_mem_take hk), hv⟩)
  refine h.mono ?_
  rintro ⟨v, c⟩ (⟨e1, e2, e3⟩ | ⟨w, K, e1, e2, e3, e4, e5, e6⟩)
  · simp only [Int.toNat_natCast] at e1 e2 e3
    rw [← hol, List.take_length] at e1 e3
    refine ⟨_, o, e1, e2, rfl, hnd, hlt, ?_⟩
    intro _ k hk
    exact e3 k (ho.mem_iff.mpr (by simpa using hk))
  · exact ⟨w, K, e1, e2, e3, e4, e5, fun h => absurd h (not_lt.mpr e6)⟩

/-- What a point `x` pays when it lies outside `[lo, up]`. -/
noncomputable def outside (x lo up : ℝ) : ℝ := if up < x then (x - up) ^ 2 else if x < lo then (x - lo) ^ 2 else 0

theorem outside_le {x y lo up : ℝ} (h1 : lo ≤ y) (h2 : y ≤ up) : outside x lo up ≤ (x - y) ^ 2 := by
  unfold outside
  split
  · nlinarith
  · split
    · nlinarith
    · positivity

theorem gt_fin_iff (x y : ℝ) : gt (F.fin x : Ex) (F.fin y) = true ↔ y < x := lt_fin y x

/-- `lb_keogh_cumulative`. -/
theorem lbKeogh_spec {o : List ℕ} (ho : o.Perm (List.range m)) {t uo lo : List Ex} {j : Int} {mean std : Ex} (hZ : Z.length = m)
    (ht : Holds t j mean std Z) (L U : ℕ → ℝ)
    (hu : ∀ (i : ℕ) (hi : i < o.length), vget uo i = .ok (F.fin (U o[i])))
    (hl : ∀ (i : ℕ) (hi : i < o.length), vget lo i = .ok (F.fin (L o[i])))
    (b : ℝ) (cb : List Ex) (hcb : cb.length = m) :
    (lbKeogh (o.map Int.ofNat) t uo lo cb j m mean std (F.fin b)).Ensures fun s => ∃ (v : ℝ) (K : List ℕ), s.1 = F.fin v ∧
      s.2.length = m ∧ v = (K.map fun k => outside (Z.getD k 0) (L k) (U k)).sum ∧ K.Nodup ∧ (∀ k ∈ K, k < m) ∧
      (v < b → ∀ k, k < m → s.2[k]? = some (F.fin (outside (Z.getD k 0) (L k) (U k)))) := by
  have hol : o.length = m := by simpa using ho.length_eq
  unfold lbKeogh
  rw [zero_F]
  refine keogh_loop ho (fun k => outside (Z.getD k 0) (L k) (U k)) b _ ?_ ?_ cb hcb
  · intro i hi v c hc hv
    have ho' : o[i] < m := by simpa using ho.mem_iff.mp (List.getElem_mem hi)
    unfold lbKeoghStep
    rw [if_pos ((lt_fin v b).mpr hv), vget_nat (by simpa using hi)]
    simp only [List.getElem_map, Res.bind_ok, Int.ofNat_eq_natCast]
    rw [Int.add_comm, ht o[i] (by omega), hu i hi]
    simp only [Res.bind_ok]
    rw [hl i hi]
    simp only [Res.bind_ok, distM_exact, zero_F, Res.pure_eq]
    have hs : ∀ x : ℝ, vset c (o[i] : Int) (F.fin x) = .ok (c.set o[i] (F.fin x)) := fun x => vset_nat _ (by omega)
    unfold outside
    by_cases h1 : U o[i] < Z.getD o[i] 0
    · rw [if_pos ((gt_fin_iff _ _).mpr h1), if_pos h1]
      simp [hs]
    · rw [if_neg (fun h => h1 ((gt_fin_iff _ _).mp h)), if_neg h1]
      by_cases h2 : Z.getD o[i] 0 < L o[i]
      · rw [if_pos ((lt_fin _ _).mpr h2), if_pos h2]
        simp [hs]
      · rw [if_neg (fun h => h2 ((lt_fin _ _).mp h)), if_neg h2]
        simp [hs]
  · intro i v c hv
    unfold lbKeoghStep
    rw [if_neg (fun h => absurd ((lt_fin v b).mp h) (not_lt.mpr hv))]
    rfl

/-- `lb_keogh_data_cumulative`. -/
theorem lbKeoghData_spec {o : List ℕ} (ho : o.Perm (List.range m)) {qo lBuff uBuff : List Ex} {off : Int} {mean std : Ex} (L U : List ℝ)
    (hLl : L.length = m) (hUl : U.length = m) (hL : Holds lBuff off mean std L) (hU : Holds uBuff off mean std U)
    (hqo : ∀ (i : ℕ) (hi : i < o.length), vget qo i = .ok (F.fin (q.getD o[i] 0)))
    (b : ℝ) (cb : List Ex) (hcb : cb.length = m) :
    (lbKeoghData (o.map Int.ofNat) qo cb lBuff uBuff off m mean std (F.fin b)).Ensures fun s => ∃ (v : ℝ) (K : List ℕ),
      s.1 = F.fin v ∧ s.2.length = m ∧ v = (K.map fun k => outside (q.getD k 0) (L.getD k 0) (U.getD k 0)).sum ∧ K.Nodup ∧
      (∀ k ∈ K, k < m) ∧ (v < b → ∀ k, k < m → s.2[k]? = some (F.fin (outside (q.getD k 0) (L.getD k 0) (U.getD k 0)))) := by
  have hol : o.length = m := by simpa using ho.length_eq
  unfold lbKeoghData
  rw [zero_F]
  refine keogh_loop ho (fun k => outside (q.getD k 0) (L.getD k 0) (U.getD k 0)) b _ ?_ ?_ cb hcb
  · intro i hi v c hc hv
    have ho' : o[i] < m := by simpa using ho.mem_iff.mp (List.getElem_mem hi)
    unfold lbKeoghDataStep
    rw [if_pos ((lt_fin v b).mpr hv), vget_nat (by simpa using hi)]
    simp only [List.getElem_map, Res.bind_ok, Int.ofNat_eq_natCast]
    rw [hU o[i] (by omega), hL o[i] (by omega), hqo i hi]
    simp only [Res.bind_ok, distM_exact, zero_F, Res.pure_eq]
    have hs : ∀ x : ℝ, vset c (o[i] : Int) (F.fin x) = .ok (c.set o[i] (F.fin x)) := fun x => vset_nat _ (by omega)
    unfold outside
    by_cases h1 : U.getD o[i] 0 < q.getD o[i] 0
    · rw [if_pos ((gt_fin_iff _ _).mpr h1), if_pos h1]
      simp [hs]
    · rw [if_neg (fun h => h1 ((gt_fin_iff _ _).mp h)), if_neg h1]
      by_cases h2 : q.getD o[i] 0 < L.getD o[i] 0
      · rw [if_pos ((lt_fin _ _).mpr h2), if_pos h2]
        simp [hs]
      · rw [if_neg (fun h => h2 ((lt_fin _ _).mp h)), if_neg h2]
        simp [hs]
  · intro i v c hv
    unfold lbKeoghDataStep
    rw [if_neg (fun h => absurd ((lt_fin v b).mp h) (not_lt.mpr hv))]
    rfl

/-! ## Cumulating -/

theorem cumulate_spec (hm : 1 ≤ m) (d : ℕ → ℝ) {src : List Ex} (hs : ∀ k, k < m → src[k]? = some (F.fin (d k))) (cb : List Ex)
    (hcb : cb.length = m) :
    cumulate m src cb = .ok (fins ((List.range m).map fun k => ((List.range' k (m - k)).map d).sum)) := by
  have gs : ∀ (z : Int) (k : ℕ), z = k → k < m → vget src z = .ok (F.fin (d k)) := by
    intro z k e hk
    rw [e]
    exact vget_of_getElem? (by omega) (by simpa using hs k hk)
  apply Res.Ensures.eq_ok
  unfold cumulate
  rw [gs _ (m - 1) (by omega) (by omega)]
  simp only [Res.bind_ok]
  rw [vset_ok _ (by omega) (by simp only [len]; omega)]
  simp only [Res.bind_ok]
  have h := forInt_ensures (lo := 0) (hi := (m : Int) - 1) (s := cb.set ((m : Int) - 1).toNat (F.fin (d (m - 1))))
    (body := fun n cb => do
      let x ← vget cb ((m : Int) - 2 - n + 1)
      let y ← vget src ((m : Int) - 2 - n)
      vset cb ((m : Int) - 2 - n) (add x y))
    (fun n c => c.length = m ∧ ∀ k : ℕ, k < m → (m : Int) - 1 - n ≤ k →
      c[k]? = some (F.fin ((List.range' k (m - k)).map d).sum)) (by omega) (by
      refine ⟨by simpa using hcb, ?_⟩
      intro k h1 h2
      have e : k = m - 1 := by omega
      have e2 : ((m : Int) - 1).toNat = m - 1 := by omega
      rw [e2, e, List.getElem?_set_self (by omega)]
      have e3 : m - (m - 1) = 1 := by omega
      rw [e3]
      simp) (by
      rintro n c h1 h2 ⟨hc, hk⟩
      obtain ⟨n, rfl⟩ : ∃ k : ℕ, n = k := ⟨n.toNat, by omega⟩
      have hx : vget c ((m : Int) - 2 - n + 1) = .ok (F.fin ((List.range' (m - 1 - n) (m - (m - 1 - n))).map d).sum) := by
        refine vget_of_getElem? (by omega) ?_
        have e : ((m : Int) - 2 - n + 1).toNat = m - 1 - n := by omega
        rw [e]
        exact hk _ (by omega) (by omega)
      rw [hx, gs _ (m - 2 - n) (by omega) (by omega)]
      simp only [Res.bind_ok, add_fin, Rounding.exact_f]
      rw [vset_ok _ (by omega) (by simp only [len]; omega), Res.ensures_ok]
      refine ⟨by simpa using hc, ?_⟩
      intro k h3 h4
      have e : ((m : Int) - 2 - n).toNat = m - 2 - n := by omega
      rw [e]
      by_cases hkk : k = m - 2 - n
      · subst hkk
        rw [List.getElem?_set_self (by omega)]
        have e2 : m - (m - 2 - n) = (m - (m - 1 - n)) + 1 := by omega
        rw [e2, List.range'_succ]
        have e3 : m - 2 - n + 1 = m - 1 - n := by omega
        rw [e3]
        simp only [List.map_cons, List.sum_cons]
        rw [_root_.add_comm]
      · rw [List.getElem?_set_ne (fun e => hkk e.symm)]
        exact hk k h3 (by omega))
  refine h.mono ?_
  rintro c ⟨hc, hk⟩
  apply List.ext_getElem?
  intro k
  rcases Nat.lt_or_ge k m with hkm | hkm
  · rw [hk k hkm (by omega)]
    simp [fins, hkm]
  · rw [List.getElem?_eq_none (by omega), List.getElem?_eq_none (by simp; omega)]

end Onex
