import Verif.Proofs.UcrBounds
import Verif.Spec.Ucr

/-!
# One window of the UCR search
-/

namespace Onex

open Spec DataT

/-! ## Mean and deviation -/

theorem sum_sq_sub (w : List ℝ) (c : ℝ) :
    (w.map fun x => (x - c) ^ 2).sum = (w.map fun x => x * x).sum - 2 * c * w.sum + w.length * c ^ 2 := by
  induction w with
  | nil => simp
  | cons a w ih =>
    simp only [List.map_cons, List.sum_cons, List.length_cons, ih]
    push_cast
    ring

theorem var_eq {w : List ℝ} (h : w ≠ []) :
    (w.map fun x => (x - average w) ^ 2).sum / w.length = (w.map fun x => x * x).sum / w.length - average w * average w := by
  have h0 : (w.length : ℝ) ≠ 0 := by
    have := List.length_pos_iff.mpr h
    positivity
  rw [sum_sq_sub]
  unfold average
  field_simp
  ring

theorem var_nonneg (w : List ℝ) (c : ℝ) : (0 : ℝ) ≤ (w.map fun x => (x - c) ^ 2).sum / w.length := by
  apply div_nonneg
  · apply List.sum_nonneg
    intro x hx
    obtain ⟨y, _, rfl⟩ := List.mem_map.mp hx
    positivity
  · positivity

theorem stdOf_eq {w : List ℝ} (h : w ≠ []) :
    stdOf (w.length : Int) (F.fin w.sum : Ex) (F.fin (w.map fun x => x * x).sum) = F.fin (stdev w) := by
  have h0 : (w.length : ℝ) ≠ 0 := by
    have := List.length_pos_iff.mpr h
    positivity
  unfold stdOf
  simp only [ofInt_F, Int.cast_natCast]
  rw [div_fin _ _ h0, div_fin _ _ h0]
  simp only [Rounding.exact_f, mul_fin, sub_fin]
  have e := var_eq h
  have hn := var_nonneg w (average w)
  rw [e] at hn
  change sqrt (F.fin ((w.map fun x => x * x).sum / w.length - average w * average w) : Ex) = _
  rw [sqrt_fin _ hn]
  unfold stdev
  rw [e]
  rfl

theorem meanOf_eq {w : List ℝ} (h : w ≠ []) : div (F.fin w.sum : Ex) (ofInt (w.length : Int)) = F.fin (average w) := by
  have h0 : (w.length : ℝ) ≠ 0 := by
    have := List.length_pos_iff.mpr h
    positivity
  simp only [ofInt_F, Int.cast_natCast]
  rw [div_fin _ _ h0]
  rfl

theorem stdev_nonneg (w : List ℝ) : 0 ≤ stdev w := Real.sqrt_nonneg _

/-- The deviation is zero just for constant series. -/
theorem stdev_pos {w : List ℝ} : 0 < stdev w ↔ Varies w := by
  unfold stdev
  rw [Real.sqrt_pos]
  constructor
  · intro h
    by_contra hc
    unfold Varies at hc
    push Not at hc
    have hz : ∀ x ∈ w, x = average w := by
      intro x hx
      have : w = List.replicate w.length x := by
        rw [List.eq_replicate_iff]
        exact ⟨rfl, fun y hy => hc y hy x hx⟩
      have hl : (w.length : ℝ) ≠ 0 := by
        have := List.length_pos_of_mem hx
        positivity
      unfold average
      rw [this, List.sum_replicate]
      simp only [List.length_replicate, nsmul_eq_mul]
      field_simp
    have : (w.map fun x => (x - average w) ^ 2).sum = 0 := by
      apply List.sum_eq_zero
      intro y hy
      obtain ⟨x, hx, rfl⟩ := List.mem_map.mp hy
      rw [← hz x hx]
      ring
    rw [this] at h
    simp at h
  · rintro ⟨x, hx, y, hy, hne⟩
    have hl : 0 < (w.length : ℝ) := by
      have := List.length_pos_of_mem hx
      positivity
    apply div_pos _ hl
    have key : ∀ z ∈ w, (z - average w) ^ 2 ≤ (w.map fun x => (x - average w) ^ 2).sum := by
      intro z hz
      refine List.single_le_sum ?_ _ (List.mem_map.mpr ⟨z, hz, rfl⟩)
      intro u hu
      obtain ⟨v, _, rfl⟩ := List.mem_map.mp hu
      positivity
    by_contra hc
    have hx' := key x hx
    have hy' := key y hy
    have ex : (x - average w) ^ 2 = 0 := le_antisymm (by linarith) (by positivity)
    have ey : (y - average w) ^ 2 = 0 := le_antisymm (by linarith) (by positivity)
    rw [sq_eq_zero_iff] at ex ey
    exact hne (by linarith)

@[simp] theorem znorm_length (w : List ℝ) : (znorm w).length = w.length := by simp [znorm]

theorem znorm_getD (w : List ℝ) {k : ℕ} (hk : k < w.length) : (znorm w).getD k 0 = (w.getD k 0 - average w) / stdev w := by
  simp [znorm, List.getD, hk]

/-! ## The prepared query -/

/-- The query is ready: `q` are its normalised values. -/
structure QueryOk (Q : UcrQuery Ex) (m r : ℕ) (q : List ℝ) : Prop where
  hm : Q.m = m
  hr : Q.r = r
  hq : Q.q = fins q
  len : q.length = m
  arr : ∃ (o : List ℕ) (L U : ℕ → ℝ), Q.order = o.map Int.ofNat ∧ o.Perm (List.range m) ∧
    (∀ (i : ℕ) (hi : i < o.length), vget Q.qo i = .ok (F.fin (q.getD o[i] 0))) ∧
    (∀ (i : ℕ) (hi : i < o.length), vget Q.uo i = .ok (F.fin (U o[i]))) ∧
    (∀ (i : ℕ) (hi : i < o.length), vget Q.lo i = .ok (F.fin (L o[i]))) ∧
    ∀ k j, k < m → j < m → inB r k j → L k ≤ q.getD j 0 ∧ q.getD j 0 ≤ U k

/-- The arrays have their sizes. -/
structure Sized (m : ℕ) (s : UcrState Ex) : Prop where
  t : s.t.length = 2 * m
  cb : s.cb.length = m
  cb1 : s.cb1.length = m
  cb2 : s.cb2.length = m
  tz : s.tz.length = m

variable {r m : ℕ} {W q : List ℝ}

/-- What may have happened to the state after a window has been looked at. -/
structure After (m : ℕ) (s s' : UcrState Ex) : Prop where
  sized : Sized m s'
  t : s'.t = s.t
  ex : s'.ex = s.ex
  ex2 : s'.ex2 = s.ex2

theorem inB_symm {r i j : ℕ} (h : inB r i j) : inB r j i := ⟨h.2, h.1⟩

/-- Filling `tz`. -/
theorem fillTz_spec {t tz : List Ex} {j : Int} {mean std : Ex} {Z : List ℝ} (hZ : Z.length = m) (ht : Holds t j mean std Z)
    (htz : tz.length = m) :
    forInt 0 (m : Int) tz (fun k tz => do
      let z ← zAt t mean std (k + j)
      vset tz k z) = .ok (fins Z) := by
  apply Res.Ensures.eq_ok
  have h := forInt_ensures (lo := 0) (hi := (m : Int)) (s := tz) (body := fun k tz => do
      let z ← zAt t mean std (k + j)
      vset tz k z) (fun k c => c.length = m ∧ ∀ i : ℕ, (i : Int) < k → c[i]? = some (F.fin (Z.getD i 0)))
    (by omega) ⟨htz, by intro i hi; omega⟩ (by
      rintro k c h1 h2 ⟨hc, hi⟩
      obtain ⟨k, rfl⟩ : ∃ i : ℕ, k = i := ⟨k.toNat, by omega⟩
      rw [Int.add_comm, ht k (by omega)]
      simp only [Res.bind_ok]
      rw [vset_nat _ (by omega), Res.ensures_ok]
      refine ⟨by simpa using hc, ?_⟩
      intro i hik
      by_cases e : i = k
      · subst e
        rw [List.getElem?_set_self (by omega)]
      · rw [List.getElem?_set_ne (fun e' => e e'.symm)]
        exact hi i (by omega))
  refine h.mono ?_
  rintro c ⟨hc, hi⟩
  apply List.ext_getElem?
  intro k
  rcases Nat.lt_or_ge k m with hkm | hkm
  · rw [hi k (by omega)]
    have : k < Z.length := by omega
    simp [fins, this]
  · rw [List.getElem?_eq_none (by omega), List.getElem?_eq_none (by simp; omega)]

/-- A window that can be normalised, when Kim's bound does not discard it wrongly: the state keeps it exactly if its least cost is below the
best so far. -/
theorem candidate_core {Q : UcrQuery Ex} (hQ : QueryOk Q m r q) (hm : 3 ≤ m) (hW : W.length = m) (hv : Varies W)
    {s : UcrState Ex} (hs : Sized m s) {j off pos : Int} {lBuff uBuff : List Ex} {Lb Ub : List ℝ} (hLb : Lb.length = m)
    (hUb : Ub.length = m)
    (ht : ∀ k : ℕ, k < m → vget s.t (j + k) = .ok (F.fin (W.getD k 0)))
    (hl : ∀ k : ℕ, k < m → vget lBuff (off + k) = .ok (F.fin (Lb.getD k 0)))
    (hu : ∀ k : ℕ, k < m → vget uBuff (off + k) = .ok (F.fin (Ub.getD k 0)))
    (hLU : ∀ k i, k < m → i < m → inB r k i → Lb.getD k 0 ≤ W.getD i 0 ∧ W.getD i 0 ≤ Ub.getD k 0)
    {b : ℝ} (hb : s.bsf = F.fin b) (hbig : b ≤ 10 ^ 20) {L : ℝ} (hL : IsLeast (warpCosts r (znorm W) q) L)
    (hkim : (lbKim s.t (fins q) j m (F.fin (average W)) (F.fin (stdev W)) (F.fin b)).Ensures fun v =>
      ∃ x, v = F.fin x ∧ (x < b ∨ b ≤ L)) :
    (ucrCandidate Q lBuff uBuff (F.fin (average W)) (F.fin (stdev W)) j off pos s).Ensures fun s' => After m s s' ∧
      ((L < b ∧ s'.bsf = F.fin L ∧ s'.loc = pos) ∨ (b ≤ L ∧ s'.bsf = F.fin b ∧ s'.loc = s.loc)) := by
  have hσ : 0 < stdev W := stdev_pos.mpr hv
  have hZl : (znorm W).length = m := by rw [znorm_length, hW]
  have hH : Holds s.t j (F.fin (average W)) (F.fin (stdev W)) (znorm W) := by
    intro k hk
    rw [zAt_eq (ht k (by omega)) hσ.ne', znorm_getD W (by omega)]
  have hHl : Holds lBuff off (F.fin (average W)) (F.fin (stdev W)) (Lb.map fun x => (x - average W) / stdev W) := by
    intro k hk
    simp only [List.length_map] at hk
    rw [zAt_eq (hl k (by omega)) hσ.ne']
    simp [List.getD, hk]
  have hHu : Holds uBuff off (F.fin (average W)) (F.fin (stdev W)) (Ub.map fun x => (x - average W) / stdev W) := by
    intro k hk
    simp only [List.length_map] at hk
    rw [zAt_eq (hu k (by omega)) hσ.ne']
    simp [List.getD, hk]
  obtain ⟨o, Lq, Uq, e1, e2, e3, e4, e5, e6⟩ := hQ.arr
  have hleast : ∀ p, IsWarpPath r (m - 1) (m - 1) p → L ≤ pathCost (znorm W) q p := by
    intro p hp
    refine hL.2 ⟨p, ?_, rfl⟩
    rw [hZl, hQ.len]
    exact hp
  obtain ⟨p0, hp0, hp0c⟩ := hL.1
  rw [hZl, hQ.len] at hp0
  have rowb : RowBound r m (znorm W) q (fun k => outside ((znorm W).getD k 0) (Lq k) (Uq k)) := by
    intro i j' hi hj hin
    obtain ⟨h1, h2⟩ := e6 i j' hi hj hin
    exact outside_le h1 h2
  have colb : ColBound r m (znorm W) q (fun k => outside (q.getD k 0) ((Lb.map fun x => (x - average W) / stdev W).getD k 0)
      ((Ub.map fun x => (x - average W) / stdev W).getD k 0)) := by
    intro i j' hi hj hin
    obtain ⟨h1, h2⟩ := hLU j' i hj hi (inB_symm hin)
    have g1 : (Lb.map fun x => (x - average W) / stdev W).getD j' 0 = (Lb.getD j' 0 - average W) / stdev W := by
      have : j' < Lb.length := by omega
      simp [List.getD, this]
    have g2 : (Ub.map fun x => (x - average W) / stdev W).getD j' 0 = (Ub.getD j' 0 - average W) / stdev W := by
      have : j' < Ub.length := by omega
      simp [List.getD, this]
    have g3 := znorm_getD W (k := i) (by omega)
    have := outside_le (x := q.getD j' 0) (y := (znorm W).getD i 0)
      (lo := (Lb.map fun x => (x - average W) / stdev W).getD j' 0) (up := (Ub.map fun x => (x - average W) / stdev W).getD j' 0)
      (by rw [g1, g3]; exact div_le_div_of_nonneg_right (by linarith) hσ.le)
      (by rw [g2, g3]; exact div_le_div_of_nonneg_right (by linarith) hσ.le)
    unfold sq
    refine this.trans (le_of_eq ?_)
    ring
  have keep : b ≤ L → ∀ s' : UcrState Ex, After m s s' → s'.bsf = F.fin b → s'.loc = s.loc → After m s s' ∧
      ((L < b ∧ s'.bsf = F.fin L ∧ s'.loc = pos) ∨ (b ≤ L ∧ s'.bsf = F.fin b ∧ s'.loc = s.loc)) :=
    fun h s' h1 h2 h3 => ⟨h1, Or.inr ⟨h, h2, h3⟩⟩
  unfold ucrCandidate
  rw [hQ.hm, hQ.hq, hb]
  refine Res.Ensures.bind hkim ?_
  rintro _ ⟨x, rfl, hx⟩
  by_cases c1 : x < b
  swap
  · rw [if_neg (fun h => c1 ((lt_fin x b).mp h))]
    exact Res.ensures_ok.mpr (keep (hx.resolve_left c1) s ⟨hs, rfl, rfl, rfl⟩ hb rfl)
  rw [if_pos ((lt_fin x b).mpr c1), e1]
  refine Res.Ensures.bind (lbKeogh_spec e2 hZl hH Lq Uq e4 e5 b s.cb1 hs.cb1) ?_
  rintro ⟨lb1, cb1⟩ ⟨v1, K1, f1, f2, f3, f4, f5, f6⟩
  dsimp only at f1 f2 f6 ⊢
  subst f1
  have hv1 : v1 ≤ L := by
    have := rows_le (by omega) rowb hp0 K1 f4 0 f5 (fun k _ => Nat.zero_le k)
    rw [filter_all] at this
    linarith
  by_cases c2 : v1 < b
  swap
  · rw [if_neg (fun h => c2 ((lt_fin v1 b).mp h))]
    exact Res.ensures_ok.mpr (keep (by linarith) _ ⟨⟨hs.t, hs.cb, f2, hs.cb2, hs.tz⟩, rfl, rfl, rfl⟩ rfl rfl)
  rw [if_pos ((lt_fin v1 b).mpr c2), fillTz_spec hZl hH hs.tz]
  simp only [Res.bind_ok]
  refine Res.Ensures.bind (lbKeoghData_spec e2 (q := q) (Lb.map fun x => (x - average W) / stdev W) (Ub.map fun x => (x - average W) / stdev W)
    (by simpa using hLb) (by simpa using hUb) hHl hHu e3 b s.cb2 hs.cb2) ?_
  rintro ⟨lb2, cb2⟩ ⟨v2, K2, g1, g2, g3, g4, g5, g6⟩
  dsimp only at g1 g2 g6 ⊢
  subst g1
  have hv2 : v2 ≤ L := by
    have := hit_sum (Z := znorm W) (q := q) (p := p0) (fun c => c.2)
      (fun k => outside (q.getD k 0) ((Lb.map fun x => (x - average W) / stdev W).getD k 0)
        ((Ub.map fun x => (x - average W) / stdev W).getD k 0)) K2 g4 (fun k hk => by
      have := g5 k hk
      obtain ⟨c, hc, e⟩ := hits_col hp0 (k := k) (by omega)
      have hle := path_le hp0 c hc
      exact ⟨c, hc, e, by rw [← e]; exact colb c.1 c.2 (by omega) (by omega) (hp0.band c hc)⟩)
    linarith
  by_cases c3 : v2 < b
  swap
  · rw [if_neg (fun h => c3 ((lt_fin v2 b).mp h))]
    exact Res.ensures_ok.mpr (keep (by linarith) _ ⟨⟨hs.t, hs.cb, f2, g2, by simpa using hZl⟩, rfl, rfl, rfl⟩ rfl rfl)
  rw [if_pos ((lt_fin v2 b).mpr c3)]
  obtain ⟨d, hd, hsrc⟩ : ∃ d : ℕ → ℝ, (RowBound r m (znorm W) q d ∨ ColBound r m (znorm W) q d) ∧
      ∀ k, k < m → (if gt (F.fin v1 : Ex) (F.fin v2) then cb1 else cb2)[k]? = some (F.fin (d k)) := by
    by_cases hg : gt (F.fin v1 : Ex) (F.fin v2) = true
    · rw [if_pos hg]
      exact ⟨_, Or.inl rowb, f6 c2⟩
    · rw [if_neg hg]
      exact ⟨_, Or.inr colb, g6 c3⟩
  rw [cumulate_spec (by omega) d hsrc s.cb hs.cb]
  simp only [Res.bind_ok]
  set C := (List.range m).map fun k => ((List.range' k (m - k)).map d).sum with hC
  have hcb : ValidCb r (znorm W) q C := by
    intro i hi p hp
    have := validCb_of (by omega) hZl hQ.len hd i (by omega) p hp
    have e : C.getD (i + r + 1) 0 = ((List.range' (i + r + 1) (m - (i + r + 1))).map d).sum := by
      have : i + r + 1 < m := by omega
      simp [hC, List.getD, this]
    rw [e]
    exact this
  obtain ⟨v, h1, h2, h3⟩ := dtw_decides (r := r) (A := znorm W) (B := q) (cb := C) (by rw [hZl, hQ.len]) (by omega)
    (by simp [hC, hW]) hcb hL hbig
  rw [hZl] at h1
  rw [hQ.hr, h1]
  simp only [Res.bind_ok]
  have hsz : Sized m { s with cb1 := cb1, tz := fins (znorm W), cb2 := cb2, cb := fins C } :=
    ⟨hs.t, by simp [hC], f2, g2, by simpa using hW⟩
  by_cases c4 : v < b
  · rw [if_pos ((lt_fin v b).mpr c4), Res.pure_eq, Res.ensures_ok]
    have hlt : L < b := by
      by_contra h
      have := h3 (not_lt.mp h)
      linarith
    rw [h2 hlt]
    exact ⟨⟨⟨hsz.t, hsz.cb, hsz.cb1, hsz.cb2, hsz.tz⟩, rfl, rfl, rfl⟩, Or.inl ⟨hlt, rfl, rfl⟩⟩
  · rw [if_neg (fun h => c4 ((lt_fin v b).mp h)), Res.pure_eq, Res.ensures_ok]
    refine keep ?_ _ ⟨⟨hsz.t, hsz.cb, hsz.cb1, hsz.cb2, hsz.tz⟩, rfl, rfl, rfl⟩ rfl rfl
    by_contra h
    rw [h2 (not_le.mp h)] at c4
    exact c4 (not_le.mp h)

/-- The values of a window in the ring, normalised. -/
theorem holds_window (hW : W.length = m) (hv : Varies W) {t : List Ex} {j : Int}
    (ht : ∀ k : ℕ, k < m → vget t (j + k) = .ok (F.fin (W.getD k 0))) :
    Holds t j (F.fin (average W)) (F.fin (stdev W)) (znorm W) := by
  intro k hk
  rw [znorm_length] at hk
  rw [zAt_eq (ht k (by omega)) (stdev_pos.mpr hv).ne', znorm_getD W (by omega)]

/-- From six values on, Kim's bound is right. -/
theorem candidate_spec {Q : UcrQuery Ex} (hQ : QueryOk Q m r q) (hm : 6 ≤ m) (hW : W.length = m) (hv : Varies W)
    {s : UcrState Ex} (hs : Sized m s) {j off pos : Int} {lBuff uBuff : List Ex} {Lb Ub : List ℝ} (hLb : Lb.length = m)
    (hUb : Ub.length = m)
    (ht : ∀ k : ℕ, k < m → vget s.t (j + k) = .ok (F.fin (W.getD k 0)))
    (hl : ∀ k : ℕ, k < m → vget lBuff (off + k) = .ok (F.fin (Lb.getD k 0)))
    (hu : ∀ k : ℕ, k < m → vget uBuff (off + k) = .ok (F.fin (Ub.getD k 0)))
    (hLU : ∀ k i, k < m → i < m → inB r k i → Lb.getD k 0 ≤ W.getD i 0 ∧ W.getD i 0 ≤ Ub.getD k 0)
    {b : ℝ} (hb : s.bsf = F.fin b) (hbig : b ≤ 10 ^ 20) {L : ℝ} (hL : IsLeast (warpCosts r (znorm W) q) L) :
    (ucrCandidate Q lBuff uBuff (F.fin (average W)) (F.fin (stdev W)) j off pos s).Ensures fun s' => After m s s' ∧
      ((L < b ∧ s'.bsf = F.fin L ∧ s'.loc = pos) ∨ (b ≤ L ∧ s'.bsf = F.fin b ∧ s'.loc = s.loc)) := by
  refine candidate_core hQ (by omega) hW hv hs hLb hUb ht hl hu hLU hb hbig hL ?_
  have hZl : (znorm W).length = m := by rw [znorm_length, hW]
  refine (lbKim_le (r := r) hZl hQ.len hm (holds_window hW hv ht) (F.fin b)).mono ?_
  rintro v ⟨x, rfl, hx⟩
  refine ⟨x, rfl, ?_⟩
  obtain ⟨p, hp, hpc⟩ := hL.1
  rw [hZl, hQ.len] at hp
  have := hx p hp
  rcases lt_or_ge x b with h | h
  · exact Or.inl h
  · exact Or.inr (by linarith)

end Onex
