import Verif.Proofs.UcrScan
import Verif.Proofs.LemireExt
import Verif.Proofs.Envelope

/-!
# One chunk of the UCR search
-/

namespace Onex

open Spec DataT

/-! ## Constant windows -/

theorem distM_nan (x : Ex) : distM (F.nan : Ex) x = F.nan := by cases x <;> rfl

theorem add_nan (x : Ex) : add (F.nan : Ex) x = F.nan := by cases x <;> rfl

theorem ge_nan (x : Ex) : ge (F.nan : Ex) x = false := by
  cases x <;> simp [ge, DataT.le, F.Lt, F.Eqv]

variable {r m : ℕ} {W q : List ℝ}

/-- A window whose normalised values are all NaN changes nothing. -/
theorem candidate_nan {Q : UcrQuery Ex} (hQ : QueryOk Q m r q) (hm : 3 ≤ m) {s : UcrState Ex} {j off pos : Int}
    {lBuff uBuff : List Ex} {mean std : Ex} (hz : ∀ k : ℕ, k < m → zAt s.t mean std (j + k) = .ok F.nan) :
    ucrCandidate Q lBuff uBuff mean std j off pos s = .ok s := by
  have g : ∀ (z : Int) (k : ℕ), z = j + k → k < m → zAt s.t mean std z = .ok F.nan := by
    intro z k e hk
    rw [e]
    exact hz k (by omega)
  have gq : ∀ (z : Int) (k : ℕ), z = k → k < m → vget (fins q : List Ex) z = .ok (F.fin (q.getD k 0)) := by
    intro z k e hk
    rw [e]
    exact vget_fins (by rw [hQ.len]; exact hk)
  have hk : lbKim s.t Q.q j Q.m mean std s.bsf = .ok F.nan := by
    rw [hQ.hq, hQ.hm]
    unfold lbKim
    rw [g j 0 (by omega) (by omega), g ((m : Int) - 1 + j) (m - 1) (by omega) (by omega), g (j + 1) 1 (by omega) (by omega),
      g ((m : Int) - 2 + j) (m - 2) (by omega) (by omega), g (j + 2) 2 (by omega) (by omega),
      g ((m : Int) - 3 + j) (m - 3) (by omega) (by omega), gq 0 0 (by omega) (by omega), gq ((m : Int) - 1) (m - 1) (by omega) (by omega),
      gq 1 1 (by omega) (by omega), gq ((m : Int) - 2) (m - 2) (by omega) (by omega), gq 2 2 (by omega) (by omega),
      gq ((m : Int) - 3) (m - 3) (by omega) (by omega)]
    simp [distM_nan, add_nan, ge_nan]
  unfold ucrCandidate
  rw [hk]
  simp

theorem zAt_const {t : List Ex} {k : Int} {x : ℝ} (h : vget t k = .ok (F.fin x)) :
    zAt t (F.fin x) (F.fin 0) k = .ok F.nan := by
  unfold zAt
  rw [h]
  simp [DataT.div, F.div, F.infSign]

theorem const_mean {w : List ℝ} (h : ¬ Varies w) {x : ℝ} (hx : x ∈ w) : x = average w := by
  unfold Varies at h
  push Not at h
  have e : w = List.replicate w.length x := by
    rw [List.eq_replicate_iff]
    exact ⟨rfl, fun y hy => h y hy x hx⟩
  have hl : (w.length : ℝ) ≠ 0 := by
    have := List.length_pos_of_mem hx
    positivity
  unfold average
  rw [e, List.sum_replicate]
  simp only [List.length_replicate, nsmul_eq_mul]
  field_simp

theorem const_stdev {w : List ℝ} (h : ¬ Varies w) : stdev w = 0 :=
  le_antisymm (not_lt.mp fun h' => h (stdev_pos.mp h')) (stdev_nonneg w)

/-! ## The best window so far -/

theorem FirstBest.le {data query : List ℝ} {bound : ℝ} {n loc : ℕ} {v : ℝ} (h : FirstBest r data query bound n loc v) : v ≤ bound := by
  rcases h with ⟨_, h, _⟩ | ⟨_, h, _⟩
  · exact h.le
  · exact h.le

theorem WindowCost.unique {data query : List ℝ} {p : ℕ} {L L' : ℝ} (h : WindowCost r data query p L)
    (h' : WindowCost r data query p L') : L = L' := h.least.unique h'.least

/-- A window that is not better. -/
theorem FirstBest.skip {data query : List ℝ} {bound : ℝ} {n loc : ℕ} {v : ℝ} (h : FirstBest r data query bound n loc v)
    (hn : ∀ L, WindowCost r data query n L → v ≤ L) : FirstBest r data query bound (n + 1) loc v := by
  rcases h with ⟨h1, h2, h3, h4, h5⟩ | ⟨h1, h2, h3⟩
  · refine Or.inl ⟨by omega, h2, h3, ?_, h5⟩
    intro p L hp hL
    rcases Nat.lt_or_ge p n with h | h
    · exact h4 p L h hL
    · have : p = n := by omega
      subst this
      exact hn L hL
  · refine Or.inr ⟨h1, h2, ?_⟩
    intro p L hp hL
    rcases Nat.lt_or_ge p n with h | h
    · exact h3 p L h hL
    · have : p = n := by omega
      subst this
      rw [← h2]
      exact hn L hL

/-- A better one. -/
theorem FirstBest.take {data query : List ℝ} {bound : ℝ} {n loc : ℕ} {v L : ℝ} (h : FirstBest r data query bound n loc v)
    (hL : WindowCost r data query n L) (hlt : L < v) : FirstBest r data query bound (n + 1) n L := by
  have hle := FirstBest.le h
  have hall : ∀ p L', p < n → WindowCost r data query p L' → L < L' := by
    intro p L' hp hL'
    rcases h with ⟨h1, h2, h3, h4, h5⟩ | ⟨h1, h2, h3⟩
    · exact hlt.trans_le (h4 p L' hp hL')
    · exact (hlt.trans_le hle).trans_le (h3 p L' hp hL')
  refine Or.inl ⟨by omega, by linarith, hL, ?_, hall⟩
  intro p L' hp hL'
  rcases Nat.lt_or_ge p n with h | h
  · exact (hall p L' h hL').le
  · have : p = n := by omega
    subst this
    rw [WindowCost.unique hL hL']

/-! ## Windows of a chunk -/

theorem windowAt_length {x : List ℝ} {p : ℕ} (h : p + m ≤ x.length) : (windowAt x p m).length = m := by
  simp [windowAt]
  omega

theorem windowAt_getD {x : List ℝ} {p k : ℕ} (hk : k < m) : (windowAt x p m).getD k 0 = x.getD (p + k) 0 := by
  simp [windowAt, List.getD, hk]

/-- The values between two positions. -/
def seg (x : List ℝ) (a b : ℕ) : List ℝ := (x.take b).drop a

theorem seg_snoc {x : List ℝ} {a b : ℕ} (hab : a ≤ b) (hb : b < x.length) : seg x a (b + 1) = seg x a b ++ [x.getD b 0] := by
  unfold seg
  rw [List.take_succ_eq_append_getElem hb, List.drop_append_of_le_length (by simp; omega)]
  simp [List.getD, hb]

theorem seg_cons {x : List ℝ} {a b : ℕ} (hab : a < b) (hb : b ≤ x.length) : seg x a b = x.getD a 0 :: seg x (a + 1) b := by
  unfold seg
  have : a < (x.take b).length := by simp; omega
  rw [List.drop_eq_getElem_cons this]
  have : a < x.length := by omega
  simp [List.getD, this]

theorem seg_window {x : List ℝ} {p : ℕ} : seg x p (p + m) = windowAt x p m := by
  unfold seg windowAt
  rw [List.drop_take]
  congr 1
  omega

/-- Where the ring `t` of size `2m` holds the last `m` values. -/
theorem ring_index {n k : ℕ} (hm : 1 ≤ m) (hn : m ≤ n + 1) (hk : k < m) :
    (n + 1) % m + k = (n + 1 - m + k) % m ∨ (n + 1) % m + k = (n + 1 - m + k) % m + m := by
  have h1 : (n + 1 - m + k) % m = ((n + 1) % m + k) % m := by
    have e : n + 1 - m + k + m = n + 1 + k := by omega
    rw [← Nat.add_mod_right, e, Nat.add_mod, Nat.mod_eq_of_lt hk]
  have h2 := Nat.mod_lt (n + 1) (show 0 < m by omega)
  rw [h1]
  generalize (n + 1) % m = a at h2 ⊢
  rcases Nat.lt_or_ge (a + k) m with h | h
  · left
    rw [Nat.mod_eq_of_lt h]
  · right
    rw [Nat.mod_eq_sub_mod h, Nat.mod_eq_of_lt (by omega)]
    omega

/-- What holds before point `n` of a chunk `x`; `G p v loc` describes the best value and its location before window `p` of the chunk. -/
structure PointInv (m : ℕ) (G : ℕ → ℝ → Int → Prop) (x : List ℝ) (n : ℕ) (s : UcrState Ex) : Prop where
  sized : Sized m s
  ring : ∀ k, k < n → n ≤ k + m → s.t[k % m]? = some (F.fin (x.getD k 0)) ∧ s.t[k % m + m]? = some (F.fin (x.getD k 0))
  ex : s.ex = F.fin (seg x (n - (m - 1)) n).sum
  ex2 : s.ex2 = F.fin ((seg x (n - (m - 1)) n).map fun y => y * y).sum
  best : ∃ v : ℝ, s.bsf = F.fin v ∧ G (n - (m - 1)) v s.loc

/-- Looking at window `W`, whose values are in the ring from `j` on and whose chunk has its envelope in the buffers, takes the best value
and its location from `A` to `B`. -/
def Looks (r m : ℕ) (Q : UcrQuery Ex) (W : List ℝ) (pos : ℕ) (A B : ℝ → Int → Prop) : Prop :=
  ∀ (s : UcrState Ex) (j off : Int) (lBuff uBuff : List Ex) (Lb Ub : List ℝ) (v : ℝ), Sized m s → Lb.length = m → Ub.length = m →
    (∀ k : ℕ, k < m → vget s.t (j + k) = .ok (F.fin (W.getD k 0))) →
    (∀ k : ℕ, k < m → vget lBuff (off + k) = .ok (F.fin (Lb.getD k 0))) →
    (∀ k : ℕ, k < m → vget uBuff (off + k) = .ok (F.fin (Ub.getD k 0))) →
    (∀ k i, k < m → i < m → inB r k i → Lb.getD k 0 ≤ W.getD i 0 ∧ W.getD i 0 ≤ Ub.getD k 0) →
    s.bsf = F.fin v → A v s.loc →
    (ucrCandidate Q lBuff uBuff (F.fin (average W)) (F.fin (stdev W)) j off (pos : Int) s).Ensures fun s' => After m s s' ∧
      ∃ v' : ℝ, s'.bsf = F.fin v' ∧ B v' s'.loc

theorem mod_ne {m k n : ℕ} (h1 : k < n) (h2 : n < k + m) : k % m ≠ n % m := by
  intro h
  have hd := (Nat.modEq_iff_dvd' h1.le).mp h
  have := Nat.le_of_dvd (by omega) hd
  omega

theorem point_spec {Q : UcrQuery Ex} {G : ℕ → ℝ → Int → Prop} {x lo up : List ℝ} (hQm : Q.m = m) (hm : 1 ≤ m)
    {epoch it : Int} {base : ℕ} (hbase : it * (epoch - m + 1) = base)
    (hG : ∀ p, p + m ≤ x.length → Looks r m Q (windowAt x p m) (base + p) (G p) (G (p + 1)))
    (henv : IsEnvelope x lo up r) {b2 l2 u2 : List Ex} {n : ℕ} (hn : n < x.length) {s : UcrState Ex}
    (hs : PointInv m G x n s) :
    (ucrPoint epoch Q (fins x ++ b2) (fins lo ++ l2) (fins up ++ u2) it n s).Ensures (PointInv m G x (n + 1)) := by
  have gget : ∀ (y : List ℝ) (y2 : List Ex) (k : ℕ), k < y.length → vget (fins y ++ y2) (k : Int) = .ok (F.fin (y.getD k 0)) := by
    intro y y2 k hk
    refine vget_of_getElem? (by omega) ?_
    rw [Int.toNat_natCast, List.getElem?_append_left (by simpa using hk)]
    simp [fins, hk]
  have hmpos : 0 < m := by omega
  have hmod := Nat.mod_lt n hmpos
  have htl := hs.sized.t
  unfold ucrPoint
  rw [gget x b2 n hn, hQm]
  simp only [Res.bind_ok]
  have em : ((n : Int).tmod (m : Int)) = ((n % m : ℕ) : Int) := by
    rw [Int.tmod_eq_emod_of_nonneg (by omega)]
    push_cast
    rfl
  have em1 : (((n : Int) + 1).tmod (m : Int)) = (((n + 1) % m : ℕ) : Int) := by
    rw [Int.tmod_eq_emod_of_nonneg (by omega)]
    push_cast
    rfl
  rw [em, em1, vset_nat _ (by omega)]
  simp only [Res.bind_ok]
  have e2 : ((n % m : ℕ) : Int) + (m : Int) = ((n % m + m : ℕ) : Int) := by push_cast; rfl
  rw [e2, vset_nat _ (by simp; omega)]
  simp only [Res.bind_ok]
  set y := x.getD n 0 with hy
  set t' := (s.t.set (n % m) (F.fin y)).set (n % m + m) (F.fin y) with ht'
  have htl' : t'.length = 2 * m := by simp [ht', htl]
  have ring' : ∀ k, k < n + 1 → n + 1 ≤ k + m → t'[k % m]? = some (F.fin (x.getD k 0)) ∧ t'[k % m + m]? = some (F.fin (x.getD k 0)) := by
    intro k hk1 hk2
    have hkm := Nat.mod_lt k hmpos
    by_cases e : k = n
    · subst e
      constructor
      · rw [ht', List.getElem?_set_ne (by omega), List.getElem?_set_self (by omega)]
      · rw [ht', List.getElem?_set_self (by simp; omega)]
    · have hne := mod_ne (show k < n by omega) (by omega : n < k + m)
      obtain ⟨h1, h2⟩ := hs.ring k (by omega) (by omega)
      constructor
      · rw [ht', List.getElem?_set_ne (by omega), List.getElem?_set_ne (by omega), h1]
      · rw [ht', List.getElem?_set_ne (by omega), List.getElem?_set_ne (by omega), h2]
  have ex' : add s.ex (F.fin y) = F.fin (seg x (n - (m - 1)) (n + 1)).sum := by
    rw [hs.ex, add_fin, seg_snoc (by omega) hn, List.sum_append]
    simp [hy]
  have ex2' : add s.ex2 (mul (F.fin y) (F.fin y)) = F.fin ((seg x (n - (m - 1)) (n + 1)).map fun y => y * y).sum := by
    rw [hs.ex2, mul_fin, add_fin, seg_snoc (by omega) hn, List.map_append, List.sum_append]
    simp [hy]
  rw [ex', ex2']
  have hsz : Sized m { s with t := t' } := ⟨htl', hs.sized.cb, hs.sized.cb1, hs.sized.cb2, hs.sized.tz⟩
  obtain ⟨v, hv1, hbest⟩ := hs.best
  by_cases hge : (n : Int) ≥ (m : Int) - 1
  swap
  · rw [if_neg hge, Res.pure_eq, Res.ensures_ok]
    have e : n + 1 - (m - 1) = n - (m - 1) := by omega
    exact ⟨⟨htl', hs.sized.cb, hs.sized.cb1, hs.sized.cb2, hs.sized.tz⟩, ring', by rw [e], by rw [e],
      ⟨v, hv1, by rw [e]; exact hbest⟩⟩
  rw [if_pos hge]
  obtain ⟨p, rfl⟩ : ∃ p, n = p + (m - 1) := ⟨n - (m - 1), by omega⟩
  have ep1 : p + (m - 1) - (m - 1) = p := by omega
  have ep2 : p + (m - 1) + 1 = p + m := by omega
  have ep3 : p + m - (m - 1) = p + 1 := by omega
  rw [ep1] at ex' ex2' hbest
  rw [ep1]
  rw [ep2] at ex' ex2' ring'
  rw [ep2]
  have hlook := hG p (by omega)
  set W := windowAt x p m with hW
  have hWl : W.length = m := windowAt_length (by omega)
  have hWne : W ≠ [] := by
    intro h
    rw [h] at hWl
    simp at hWl
    omega
  have eW : seg x p (p + m) = W := seg_window
  have htW : ∀ k : ℕ, k < m → vget t' ((((p + m) % m : ℕ) : Int) + k) = .ok (F.fin (W.getD k 0)) := by
    intro k hk
    have h := ring_index (m := m) (n := p + (m - 1)) (k := k) (by omega) (by omega) hk
    rw [ep2] at h
    have e : p + m - m + k = p + k := by omega
    rw [e] at h
    obtain ⟨h1, h2⟩ := ring' (p + k) (by omega) (by omega)
    have e3 : (((p + m) % m : ℕ) : Int) + (k : Int) = (((p + m) % m + k : ℕ) : Int) := by push_cast; rfl
    rw [e3]
    refine vget_of_getElem? (by omega) ?_
    rw [Int.toNat_natCast, hW, windowAt_getD hk]
    rcases h with h | h
    · rw [h, h1]
    · rw [h, h2]
  have hpos : it * (epoch - (m : Int) + 1) + ((p + (m - 1) : ℕ) : Int) - (m : Int) + 1 = ((base + p : ℕ) : Int) := by
    rw [hbase]
    push_cast
    omega
  have hoff : ((p + (m - 1) : ℕ) : Int) - ((m : Int) - 1) = (p : Int) := by
    push_cast
    omega
  rw [hpos, hoff, eW]
  have hmean : div (F.fin W.sum : Ex) (ofInt (m : Int)) = F.fin (average W) := by
    rw [← hWl]
    exact meanOf_eq hWne
  have hstd : stdOf (m : Int) (F.fin W.sum : Ex) (F.fin (W.map fun x => x * x).sum) = F.fin (stdev W) := by
    conv_lhs => rw [← hWl]
    exact stdOf_eq hWne
  rw [hmean, hstd]
  have htail : ∀ s' : UcrState Ex, s'.t = t' → s'.ex = F.fin W.sum → s'.ex2 = F.fin (W.map fun x => x * x).sum → Sized m s' →
      (∃ v : ℝ, s'.bsf = F.fin v ∧ G (p + 1) v s'.loc) →
      (do
        let tj ← vget s'.t (((p + m) % m : ℕ) : Int)
        return { s' with ex := sub s'.ex tj, ex2 := sub s'.ex2 (mul tj tj) } : Res (UcrState Ex)).Ensures
          (PointInv m G x (p + m)) := by
    intro s' h1 h2 h3 h4 h5
    have g := htW 0 (by omega)
    rw [Nat.cast_zero, Int.add_zero] at g
    rw [h1, g]
    simp only [Res.bind_ok, Res.pure_eq, Res.ensures_ok]
    have ec := seg_cons (x := x) (a := p) (b := p + m) (by omega) (by omega)
    rw [eW] at ec
    have e0 : W.getD 0 0 = x.getD p 0 := by
      rw [hW, windowAt_getD (by omega), Nat.add_zero]
    refine ⟨⟨by dsimp only; rw [← h1]; exact h4.t, h4.cb, h4.cb1, h4.cb2, h4.tz⟩, ?_, ?_, ?_, ?_⟩
    · exact ring'
    · dsimp only
      rw [h2, sub_fin, ep3, e0]
      congr 1
      rw [ec]
      simp
    · dsimp only
      rw [h3, mul_fin, sub_fin, ep3, e0]
      congr 1
      rw [ec]
      simp
    · dsimp only
      rw [ep3]
      exact h5
  have hlo := henv.lenLo
  have hup := henv.lenUp
  refine Res.Ensures.bind (hlook { s with t := t', ex := F.fin W.sum, ex2 := F.fin (W.map fun x => x * x).sum }
    (((p + m) % m : ℕ) : Int) (p : Int) (fins lo ++ l2) (fins up ++ u2) (windowAt lo p m) (windowAt up p m) v
    ⟨htl', hs.sized.cb, hs.sized.cb1, hs.sized.cb2, hs.sized.tz⟩ (windowAt_length (by omega)) (windowAt_length (by omega)) htW
    ?_ ?_ ?_ hv1 hbest) ?_
  · intro k hk
    have e3 : (p : Int) + (k : Int) = ((p + k : ℕ) : Int) := by push_cast; rfl
    rw [e3, gget lo l2 (p + k) (by omega), windowAt_getD hk]
  · intro k hk
    have e3 : (p : Int) + (k : Int) = ((p + k : ℕ) : Int) := by push_cast; rfl
    rw [e3, gget up u2 (p + k) (by omega), windowAt_getD hk]
  · intro k i hk hi hin
    rw [windowAt_getD hk, windowAt_getD hk, hW, windowAt_getD hi]
    have hmem : x.getD (p + i) 0 ∈ window x r (p + k) := by
      have : p + i < x.length := by omega
      refine ⟨p + i, by simp [List.getD, this], ?_, ?_⟩
      · have := hin.1
        omega
      · have := hin.2
        omega
    exact ⟨(henv.low (p + k) (by omega)).2 hmem, (henv.upp (p + k) (by omega)).2 hmem⟩
  · rintro s' ⟨⟨a1, a2, a3, a4⟩, h⟩
    exact htail s' a2 a3 a4 a1 h

/-! ## The nearest window -/

theorem looks_nearest {Q : UcrQuery Ex} {data query : List ℝ} (hq : query.length = m) (hQ : QueryOk Q m r (znorm query)) (hm : 6 ≤ m)
    {p : ℕ} (hp : p + m ≤ data.length) :
    Looks r m Q (windowAt data p m) p (fun v loc => ∃ l : ℕ, loc = l ∧ FirstBest r data query (10 ^ 20) p l v)
      (fun v loc => ∃ l : ℕ, loc = l ∧ FirstBest r data query (10 ^ 20) (p + 1) l v) := by
  rintro s j off lBuff uBuff Lb Ub v hs hLb hUb ht hl hu hLU hv ⟨loc, hloc, hbest⟩
  have hWl : (windowAt data p m).length = m := windowAt_length hp
  by_cases hvar : Varies (windowAt data p m)
  · have hinB : inB r ((znorm (windowAt data p m)).length - 1) ((znorm query).length - 1) := by
      rw [znorm_length, znorm_length, hWl, hq]
      unfold inB
      omega
    have hL := dp_isLeast (znorm (windowAt data p m)) (znorm query) hinB
    revert hL
    generalize dp Rounding.exact (ecost Rounding.exact (znorm (windowAt data p m)) (znorm query)) r
      ((znorm (windowAt data p m)).length - 1) ((znorm query).length - 1) = L
    intro hL
    have hcost : WindowCost r data query p L := by
      refine ⟨by rw [hq]; exact hp, ?_, ?_⟩
      · rw [hq]
        exact hvar
      · rw [hq]
        exact hL
    refine (candidate_spec hQ hm hWl hvar hs hLb hUb ht hl hu hLU hv (FirstBest.le hbest) hL).mono ?_
    rintro s' ⟨h0, ⟨h1, h2, h3⟩ | ⟨h1, h2, h3⟩⟩
    · exact ⟨h0, L, h2, p, h3, FirstBest.take hbest hcost h1⟩
    · refine ⟨h0, v, h2, loc, by rw [h3]; exact hloc, FirstBest.skip hbest ?_⟩
      intro L' hL'
      rw [WindowCost.unique hL' hcost]
      exact h1
  · rw [const_stdev hvar, candidate_nan hQ (by omega), Res.ensures_ok]
    · refine ⟨⟨hs, rfl, rfl, rfl⟩, v, hv, loc, hloc, FirstBest.skip hbest ?_⟩
      intro L hL
      have := hL.varies
      rw [hq] at this
      exact absurd this hvar
    · intro k hk
      have h := ht k hk
      have hmem : (windowAt data p m).getD k 0 ∈ windowAt data p m := by
        have : k < (windowAt data p m).length := by omega
        rw [List.getD_eq_getElem?_getD, List.getElem?_eq_getElem this]
        exact List.getElem_mem this
      rw [const_mean hvar hmem] at h
      exact zAt_const h

end Onex
