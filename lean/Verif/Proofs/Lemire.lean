import Verif.Model.Lemire
import Verif.Proofs.Deque
import Mathlib.Order.Basic
import Mathlib.Data.List.Perm.Subperm
import Mathlib.Data.List.Pairwise

/-!
# `lower_upper_lemire` computes sliding extrema
-/

set_option linter.unusedSectionVars false

namespace Onex

section win
variable {β : Type} [LinearOrder β] {v : ℕ → β}

/-- `D` is a monotone queue for the window `lo .. i-1` of values `v` (larger is better). -/
structure Win (v : ℕ → β) (D : List ℕ) (lo i : ℕ) : Prop where
  sorted : D.Pairwise (· < ·)
  range : ∀ d ∈ D, lo ≤ d ∧ d < i
  mono : D.Pairwise (fun a b => v b ≤ v a)
  cover : ∀ j, lo ≤ j → j < i → ∃ d ∈ D, j ≤ d ∧ v j ≤ v d

theorem Win.last {D : List ℕ} {lo i : ℕ} (h : Win v D lo (i + 1)) (hlo : lo ≤ i) :
    ∃ P, D = P ++ [i] := by
  obtain ⟨d, hd, h1, _⟩ := h.cover i hlo (by omega)
  have : d = i := by have := (h.range d hd).2; omega
  subst this
  rcases List.eq_nil_or_concat D with rfl | ⟨P, x, hP⟩
  · cases hd
  · rw [List.concat_eq_append] at hP
    subst hP
    refine ⟨P, ?_⟩
    rcases List.mem_append.mp hd with h2 | h2
    · have h3 := (List.pairwise_append.mp h.sorted).2.2 d h2 x (by simp)
      have := (h.range x (by simp)).2
      omega
    · simp at h2
      rw [h2]

theorem Win.front {D : List ℕ} {lo i x : ℕ} (h : Win v (x :: D) lo i) :
    lo ≤ x ∧ x < i ∧ ∀ j, lo ≤ j → j < i → v j ≤ v x := by
  obtain ⟨h1, h2⟩ := h.range x (by simp)
  refine ⟨h1, h2, ?_⟩
  intro j hj1 hj2
  obtain ⟨d, hd, _, hv⟩ := h.cover j hj1 hj2
  rcases List.mem_cons.mp hd with rfl | hd
  · exact hv
  · exact hv.trans ((List.pairwise_cons.mp h.mono).1 d hd)

theorem Win.push {P E : List ℕ} {lo i : ℕ} (h : Win v (P ++ E) lo i) (hlo : lo ≤ i)
    (hE : ∀ e ∈ E, v e ≤ v i) (hP : ∀ d ∈ P, v i ≤ v d) : Win v (P ++ [i]) lo (i + 1) := by
  refine ⟨?_, ?_, ?_, ?_⟩
  · rw [List.pairwise_append]
    refine ⟨(List.pairwise_append.mp h.sorted).1, List.pairwise_singleton _ _, ?_⟩
    intro a ha b hb
    simp at hb
    subst hb
    exact (h.range a (List.mem_append_left _ ha)).2
  · intro d hd
    rcases List.mem_append.mp hd with hd | hd
    · have := h.range d (List.mem_append_left _ hd)
      omega
    · simp at hd
      omega
  · rw [List.pairwise_append]
    refine ⟨(List.pairwise_append.mp h.mono).1, List.pairwise_singleton _ _, ?_⟩
    intro a ha b hb
    simp at hb
    subst hb
    exact hP a ha
  · intro j hj1 hj2
    rcases Nat.lt_or_ge j i with hji | hji
    · obtain ⟨d, hd, h1, h2⟩ := h.cover j hj1 hji
      rcases List.mem_append.mp hd with hd | hd
      · exact ⟨d, List.mem_append_left _ hd, h1, h2⟩
      · exact ⟨i, by simp, by omega, h2.trans (hE d hd)⟩
    · obtain rfl : j = i := by omega
      exact ⟨j, by simp, le_refl _, le_refl _⟩

theorem Win.evict {D : List ℕ} {lo i : ℕ} (h : Win v (lo :: D) lo i) : Win v D (lo + 1) i := by
  refine ⟨(List.pairwise_cons.mp h.sorted).2, ?_, (List.pairwise_cons.mp h.mono).2, ?_⟩
  · intro d hd
    have h1 := (List.pairwise_cons.mp h.sorted).1 d hd
    have h2 := (h.range d (by simp [hd])).2
    omega
  · intro j hj1 hj2
    obtain ⟨d, hd, h1, h2⟩ := h.cover j (by omega) hj2
    rcases List.mem_cons.mp hd with rfl | hd
    · omega
    · exact ⟨d, hd, h1, h2⟩

theorem Win.keep {D : List ℕ} {lo i x : ℕ} (h : Win v (x :: D) lo i) (hx : x ≠ lo) :
    Win v (x :: D) (lo + 1) i := by
  refine ⟨h.sorted, ?_, h.mono, ?_⟩
  · intro d hd
    obtain ⟨h1, h2⟩ := h.range d hd
    rcases List.mem_cons.mp hd with rfl | hd
    · omega
    · have h3 := (List.pairwise_cons.mp h.sorted).1 d hd
      have := h.range x (by simp)
      omega
  · intro j hj1 hj2
    exact h.cover j (by omega) hj2

theorem Win.weaken {D : List ℕ} {lo lo' i : ℕ} (h : Win v D lo i) (he : lo = lo') : Win v D lo' i :=
  he ▸ h

end win

section code
variable {α β : Type} [LinearOrder β]

/-- The outcome `b` of asking whether `x` is below `y` is right, except possibly on ties. -/
def Decides (b : Bool) (x y : β) : Prop := (b = true → x ≤ y) ∧ (¬ b = true → y ≤ x)

theorem decides_of_iff {b : Bool} {x y : β} (h : b = true ↔ x < y) : Decides b x y :=
  ⟨fun hb => (h.mp hb).le, fun hb => not_lt.mp (mt h.mpr hb)⟩

/-- Indices stored in the modelled deque. -/
def RepN (c : ℕ) (d : Deque) (D : List ℕ) : Prop := Rep c d (D.map Nat.cast)

theorem popWhile_spec {cmp : α → α → Bool} {t : List α} {v : ℕ → β} {i : ℕ} (hi : i < t.length)
    (hcmp : ∀ j (hj : j < t.length), Decides (cmp t[i] t[j]) (v j) (v i)) {c : ℕ} :
    ∀ (fuel : ℕ) (d : Deque) (D : List ℕ), RepN c d D → fuel = D.length →
      (∀ j ∈ D, j < t.length) → D.Pairwise (fun a b => v b ≤ v a) →
      ∃ d' P E, popWhile cmp t t[i] fuel d = .ok d' ∧ RepN c d' P ∧ D = P ++ E ∧
        (∀ e ∈ E, v e ≤ v i) ∧ (∀ p ∈ P, v i ≤ v p) := by
  intro fuel
  induction fuel with
  | zero =>
    intro d D hrep hf _ _
    have hD : D = [] := List.eq_nil_of_length_eq_zero hf.symm
    subst hD
    have he : d.empty = true := rep_empty hrep
    exact ⟨d, [], [], by simp [popWhile, he], hrep, rfl, by simp, by simp⟩
  | succ fuel ih =>
    intro d D hrep hf hlt hmono
    rcases List.eq_nil_or_concat D with rfl | ⟨P, x, hP⟩
    · simp at hf
    · rw [List.concat_eq_append] at hP
      subst hP
      have hrep' : Rep c d (P.map Nat.cast ++ [(x : Int)]) := by
        have := hrep
        unfold RepN at this
        simpa using this
      have he : d.empty = false := by
        rw [rep_empty hrep']
        cases P <;> rfl
      have hx := hlt x (by simp)
      have hb := rep_back hrep'
      simp only [popWhile, he, Bool.false_eq_true, if_false, hb, Res.bind_ok, vget_nat hx]
      by_cases hc : cmp t[i] t[x] = true
      · rw [if_pos hc]
        obtain ⟨d1, h1, h2⟩ := rep_popBack hrep'
        rw [h1]
        simp only [Res.bind_ok]
        obtain ⟨d', P', E, h3, h4, h5, h6, h7⟩ := ih d1 P h2 (by simpa using hf)
          (fun j hj => hlt j (by simp [hj])) (List.pairwise_append.mp hmono).1
        refine ⟨d', P', E ++ [x], h3, h4, by rw [h5]; simp, ?_, h7⟩
        intro e he
        rcases List.mem_append.mp he with he | he
        · exact h6 e he
        · simp at he
          subst he
          exact (hcmp e hx).1 hc
      · rw [if_neg hc]
        refine ⟨d, P ++ [x], [], rfl, hrep, by simp, by simp, ?_⟩
        have hvx : v i ≤ v x := (hcmp x hx).2 hc
        intro p hp
        rcases List.mem_append.mp hp with hp | hp
        · exact hvx.trans ((List.pairwise_append.mp hmono).2.2 p hp x (by simp))
        · simp at hp
          subst hp
          exact hvx

/-- `u` holds at positions `< p` the best element of `t` over the window of half-width `r`. -/
def Outputs (v : ℕ → β) (t u : List α) (r p : ℕ) : Prop :=
  u.length = t.length ∧ ∀ q, q < p → q < t.length → ∃ j, ∃ hj : j < t.length,
    q ≤ j + r ∧ j ≤ q + r ∧ u[q]? = some t[j] ∧
    ∀ j', j' < t.length → q ≤ j' + r → j' ≤ q + r → v j' ≤ v j

theorem Outputs.set {v : ℕ → β} {t u u' : List α} {r p j lo i : ℕ} (h : Outputs v t u r p)
    (hj : j < t.length) (hp : p < t.length) (hs : vset u (p : Int) t[j] = .ok u')
    (hlo : lo = p - r) (hi : i = min t.length (p + r + 1))
    (h1 : lo ≤ j) (h2 : j < i) (h3 : ∀ j', lo ≤ j' → j' < i → v j' ≤ v j) :
    Outputs v t u' r (p + 1) := by
  obtain ⟨hl, hout⟩ := h
  refine ⟨by rw [vset_len hs, hl], ?_⟩
  obtain ⟨_, rfl⟩ := vset_eq_ok.mp hs
  intro q hq hqt
  rcases Nat.lt_or_ge q p with hqp | hqp
  · obtain ⟨k, hk, g1, g2, g3, g4⟩ := hout q hqp hqt
    refine ⟨k, hk, g1, g2, ?_, g4⟩
    simp only [Int.toNat_natCast]
    rw [List.getElem?_set_ne (by omega)]
    exact g3
  · obtain rfl : q = p := by omega
    refine ⟨j, hj, by omega, by omega, ?_, ?_⟩
    · simp only [Int.toNat_natCast]
      rw [List.getElem?_set_self (by omega)]
    · intro j' hj' g1 g2
      exact h3 j' (by omega) (by omega)

theorem vset_succeeds {u : List α} {p : ℕ} (x : α) (h : p < u.length) :
    ∃ u', vset u (p : Int) x = .ok u' := ⟨_, vset_nat x h⟩

variable [DataT α]

/-- Order facts about the values: comparing elements of `t` agrees with comparing `v`.  With a constant
`v` this holds for any comparison whatever (not-a-number included). -/
def OrdOk (t : List α) (v : ℕ → β) : Prop :=
  ∀ i j (hi : i < t.length) (hj : j < t.length), Decides (DataT.lt t[i] t[j]) (v i) (v j)

/-- Loop invariant. `i` is the index about to be processed. -/
structure LInv (v : ℕ → β) (t : List α) (r c i last : ℕ) (s : LemireState α) (Du Dl : List ℕ) : Prop where
  du : RepN c s.du Du
  dl : RepN c s.dl Dl
  wu : Win v Du (i - (2 * r + 1)) last
  wl : Win (fun k => OrderDual.toDual (v k)) Dl (i - (2 * r + 1)) last
  ou : Outputs v t s.u r (i - (r + 1))
  ol : Outputs (fun k => OrderDual.toDual (v k)) t s.l r (i - (r + 1))

theorem length_le_of_win {v : ℕ → β} {D : List ℕ} {lo i : ℕ} (h : Win v D lo i) :
    D.length ≤ i - lo := by
  have hnd : D.Nodup := h.sorted.imp (fun hab => Nat.ne_of_lt hab)
  have hsub : D ⊆ List.range' lo (i - lo) := by
    intro d hd
    obtain ⟨h1, h2⟩ := h.range d hd
    rw [List.mem_range'_1]
    omega
  have := (List.subperm_of_subset hnd hsub).length_le
  simpa using this

theorem repN_cons {c : ℕ} {d : Deque} {x : ℕ} {D : List ℕ} (h : RepN c d (x :: D)) :
    d.front = .ok (x : Int) ∧ ∃ d', d.popFront = .ok d' ∧ RepN c d' D := by
  unfold RepN at h
  simp only [List.map_cons] at h
  exact ⟨rep_front h, rep_popFront h⟩

theorem repN_push {c : ℕ} {d : Deque} {D : List ℕ} (h : RepN c d D) (hlt : D.length < c) (i : ℕ) :
    ∃ d', d.pushBack (i : Int) = .ok d' ∧ RepN c d' (D ++ [i]) := by
  obtain ⟨d', h1, h2⟩ := rep_pushBack h (by simpa using hlt) (i : Int)
  refine ⟨d', h1, ?_⟩
  unfold RepN
  simpa using h2

theorem repN_popBack {c : ℕ} {d : Deque} {x : ℕ} {D : List ℕ} (h : RepN c d (D ++ [x])) :
    ∃ d', d.popBack = .ok d' ∧ RepN c d' D := by
  unfold RepN at h
  simp only [List.map_append, List.map_cons, List.map_nil] at h
  exact rep_popBack h

theorem repN_size {c : ℕ} {d : Deque} {D : List ℕ} (h : RepN c d D) : d.size.toNat = D.length := by
  have := h.size
  rw [this]
  simp [len]

/-- The queue that loses its back: pop `i-1`, pop worse ones, push `i`. -/
theorem pop_push_spec {cmp : α → α → Bool} {t : List α} {v : ℕ → β} {i : ℕ} (hi : i + 1 < t.length)
    (hcmp : ∀ j (hj : j < t.length), Decides (cmp t[i + 1] t[j]) (v j) (v (i + 1))) {c lo : ℕ} {d : Deque}
    {D : List ℕ} (hrep : RepN c d D) (hw : Win v D lo (i + 1)) (hlo : lo ≤ i) (hc : i + 1 - lo < c)
    (hle : v i ≤ v (i + 1)) :
    ∃ d1 d2 d3 P, d.popBack = .ok d1 ∧ popWhile cmp t t[i + 1] d1.size.toNat d1 = .ok d2 ∧
      d2.pushBack ((i + 1 : ℕ) : Int) = .ok d3 ∧ RepN c d3 (P ++ [i + 1]) ∧
      Win v (P ++ [i + 1]) lo (i + 2) ∧ (∀ p ∈ P, p ∈ D ∧ p ≠ i) := by
  obtain ⟨Q, rfl⟩ := hw.last hlo
  obtain ⟨d1, h1, h2⟩ := repN_popBack hrep
  have hmono := (List.pairwise_append.mp hw.mono).1
  obtain ⟨d2, P, E, h3, h4, h5, h6, h7⟩ := popWhile_spec hi hcmp d1.size.toNat d1 Q h2 (repN_size h2)
    (fun j hj => by have := (hw.range j (by simp [hj])).2; omega) hmono
  have hlen := length_le_of_win hw
  have hPlen : P.length < c := by
    rw [h5] at hlen
    simp at hlen
    omega
  obtain ⟨d3, h8, h9⟩ := repN_push h4 hPlen (i + 1)
  refine ⟨d1, d2, d3, P, h1, h3, h8, h9, ?_, ?_⟩
  · subst h5
    have hw' : Win v (P ++ (E ++ [i])) lo (i + 1) := by simpa using hw
    apply hw'.push (by omega)
    · intro e he
      rcases List.mem_append.mp he with he | he
      · exact h6 e he
      · simp at he
        subst he
        exact hle
    · exact h7
  · intro p hp
    subst h5
    refine ⟨by simp [hp], ?_⟩
    have := (List.pairwise_append.mp hw.sorted).2.2 p (by simp [hp]) i (by simp)
    omega

/-- The queue that only gains `i`. -/
theorem push_spec {v : ℕ → β} {i c lo : ℕ} {d : Deque}
    {D : List ℕ} (hrep : RepN c d D) (hw : Win v D lo (i + 1)) (hlo : lo ≤ i) (hc : i + 1 - lo < c)
    (hle : v (i + 1) ≤ v i) :
    ∃ d3, d.pushBack ((i + 1 : ℕ) : Int) = .ok d3 ∧ RepN c d3 (D ++ [i + 1]) ∧
      Win v (D ++ [i + 1]) lo (i + 2) := by
  have hlen := length_le_of_win hw
  obtain ⟨d3, h8, h9⟩ := repN_push hrep (by omega) (i + 1)
  refine ⟨d3, h8, h9, ?_⟩
  have hw' : Win v (D ++ []) lo (i + 1) := by simpa using hw
  apply hw'.push (by omega) (by simp)
  intro p hp
  obtain ⟨Q, rfl⟩ := hw.last hlo
  rcases List.mem_append.mp hp with hp | hp
  · exact hle.trans ((List.pairwise_append.mp hw.mono).2.2 p hp i (by simp))
  · simp at hp
    subst hp
    exact hle

theorem win_ne_nil {v : ℕ → β} {D : List ℕ} {lo i : ℕ} (h : Win v D lo i) (hlo : lo < i) :
    ∃ x D', D = x :: D' := by
  obtain ⟨d, hd, _⟩ := h.cover lo (le_refl _) hlo
  cases D with
  | nil => cases hd
  | cons x D' => exact ⟨x, D', rfl⟩

/-- Writing the outputs for position `i - r - 1`. -/
theorem write_spec {v : ℕ → β} {t u l : List α} {r c i last : ℕ} {du dl : Deque} {Du Dl : List ℕ}
    (hdu : RepN c du Du) (hdl : RepN c dl Dl)
    (wu : Win v Du (i - (2 * r + 1)) last)
    (wl : Win (fun k => OrderDual.toDual (v k)) Dl (i - (2 * r + 1)) last)
    (ou : Outputs v t u r (i - (r + 1)))
    (ol : Outputs (fun k => OrderDual.toDual (v k)) t l r (i - (r + 1)))
    (hlast : last = min t.length i) (hi : r < i) (hp : i - (r + 1) < t.length)
    (hne : i - (2 * r + 1) < last) :
    ∃ (fu fl : ℕ) (Du' Dl' : List ℕ) (tu tl : α) (u' l' : List α),
      Du = fu :: Du' ∧ Dl = fl :: Dl' ∧
      du.front = .ok (fu : Int) ∧ vget t (fu : Int) = .ok tu ∧
      vset u ((i : Int) - r - 1) tu = .ok u' ∧ dl.front = .ok (fl : Int) ∧
      vget t (fl : Int) = .ok tl ∧ vset l ((i : Int) - r - 1) tl = .ok l' ∧
      Outputs v t u' r (i - r) ∧
      Outputs (fun k => OrderDual.toDual (v k)) t l' r (i - r) := by
  obtain ⟨fu, Du', rfl⟩ := win_ne_nil wu hne
  obtain ⟨fl, Dl', rfl⟩ := win_ne_nil wl hne
  obtain ⟨a1, a2, a3⟩ := wu.front
  obtain ⟨b1, b2, b3⟩ := wl.front
  have hfu : fu < t.length := by omega
  have hfl : fl < t.length := by omega
  have ep : ((i : Int) - r - 1) = ((i - (r + 1) : ℕ) : Int) := by omega
  rw [ep]
  obtain ⟨u', hu'⟩ := vset_succeeds (u := u) (p := i - (r + 1)) t[fu] (by rw [ou.1]; exact hp)
  obtain ⟨l', hl'⟩ := vset_succeeds (u := l) (p := i - (r + 1)) t[fl] (by rw [ol.1]; exact hp)
  refine ⟨fu, fl, Du', Dl', t[fu], t[fl], u', l', rfl, rfl, (repN_cons hdu).1, vget_nat hfu, hu',
    (repN_cons hdl).1, vget_nat hfl, hl', ?_, ?_⟩
  · have := ou.set hfu hp hu' (lo := i - (2 * r + 1)) (i := last) (by omega) (by omega) a1 a2 a3
    have e : i - (r + 1) + 1 = i - r := by omega
    rwa [e] at this
  · have := ol.set hfl hp hl' (lo := i - (2 * r + 1)) (i := last) (by omega) (by omega) b1 b2 b3
    have e : i - (r + 1) + 1 = i - r := by omega
    rwa [e] at this

/-- Updating the two queues with index `i`: pops, pushes, eviction. -/
theorem queue_spec {v : ℕ → β} {t : List α} (ht : OrdOk t v) {r i : ℕ} {s : LemireState α} {Du Dl : List ℕ}
    (hi : i + 1 < t.length) (hdu : RepN (2 * r + 2) s.du Du) (hdl : RepN (2 * r + 2) s.dl Dl)
    (wu : Win v Du (i + 1 - (2 * r + 1)) (i + 1))
    (wl : Win (fun k => OrderDual.toDual (v k)) Dl (i + 1 - (2 * r + 1)) (i + 1))
    (hdisj : ∀ d ∈ Du, d ∈ Dl → d = i) :
    Res.Ensures (do
      let ti ← vget t ((i + 1 : ℕ) : Int)
      let tp ← vget t (((i + 1 : ℕ) : Int) - 1)
      let s ←
        if DataT.gt ti tp then do
          let du ← s.du.popBack
          let du ← popWhile DataT.gt t ti du.size.toNat du
          pure { s with du := du }
        else do
          let dl ← s.dl.popBack
          let dl ← popWhile DataT.lt t ti dl.size.toNat dl
          pure { s with dl := dl }
      let du ← s.du.pushBack ((i + 1 : ℕ) : Int)
      let dl ← s.dl.pushBack ((i + 1 : ℕ) : Int)
      let s := { s with du := du, dl := dl }
      let uf ← s.du.front
      if ((i + 1 : ℕ) : Int) = 2 * r + 1 + uf then do
        let du ← s.du.popFront
        pure { s with du := du }
      else do
        let lf ← s.dl.front
        if ((i + 1 : ℕ) : Int) = 2 * r + 1 + lf then do
          let dl ← s.dl.popFront
          pure { s with dl := dl }
        else pure s : Res (LemireState α)) (fun s' => s'.u = s.u ∧ s'.l = s.l ∧
          ∃ Du' Dl', RepN (2 * r + 2) s'.du Du' ∧ RepN (2 * r + 2) s'.dl Dl' ∧
            Win v Du' (i + 2 - (2 * r + 1)) (i + 2) ∧
            Win (fun k => OrderDual.toDual (v k)) Dl' (i + 2 - (2 * r + 1)) (i + 2) ∧
            ∀ d ∈ Du', d ∈ Dl' → d = i + 1) := by
  have e1 : ((i + 1 : ℕ) : Int) - 1 = (i : ℕ) := by omega
  rw [e1, vget_nat hi, vget_nat (by omega : i < t.length)]
  simp only [Res.bind_ok]
  have hlt := ht i (i + 1) (by omega) hi
  -- the queues after pushing
  have main : ∀ (s' : LemireState α) (du dl : Deque) (Du' Dl' : List ℕ),
      s'.u = s.u → s'.l = s.l →
      s'.du.pushBack ((i + 1 : ℕ) : Int) = .ok du → s'.dl.pushBack ((i + 1 : ℕ) : Int) = .ok dl →
      RepN (2 * r + 2) du Du' → RepN (2 * r + 2) dl Dl' →
      Win v Du' (i + 1 - (2 * r + 1)) (i + 2) →
      Win (fun k => OrderDual.toDual (v k)) Dl' (i + 1 - (2 * r + 1)) (i + 2) →
      (∀ d ∈ Du', d ∈ Dl' → d = i + 1) →
      Res.Ensures (do
        let du ← s'.du.pushBack ((i + 1 : ℕ) : Int)
        let dl ← s'.dl.pushBack ((i + 1 : ℕ) : Int)
        let s := { s' with du := du, dl := dl }
        let uf ← s.du.front
        if ((i + 1 : ℕ) : Int) = 2 * r + 1 + uf then do
          let du ← s.du.popFront
          pure { s with du := du }
        else do
          let lf ← s.dl.front
          if ((i + 1 : ℕ) : Int) = 2 * r + 1 + lf then do
            let dl ← s.dl.popFront
            pure { s with dl := dl }
          else pure s : Res (LemireState α)) (fun s' => s'.u = s.u ∧ s'.l = s.l ∧
            ∃ Du' Dl', RepN (2 * r + 2) s'.du Du' ∧ RepN (2 * r + 2) s'.dl Dl' ∧
              Win v Du' (i + 2 - (2 * r + 1)) (i + 2) ∧
              Win (fun k => OrderDual.toDual (v k)) Dl' (i + 2 - (2 * r + 1)) (i + 2) ∧
              ∀ d ∈ Du', d ∈ Dl' → d = i + 1) := by
    intro s' du dl Du' Dl' hu hl hpu hpl hru hrl hwu hwl hdis
    obtain ⟨fu, Du2, rfl⟩ := win_ne_nil hwu (by omega)
    obtain ⟨fl, Dl2, rfl⟩ := win_ne_nil hwl (by omega)
    obtain ⟨gu1, du2, gu2, gu3⟩ := repN_cons hru
    obtain ⟨gl1, dl2, gl2, gl3⟩ := repN_cons hrl
    obtain ⟨a1, a2, _⟩ := hwu.front
    obtain ⟨b1, b2, _⟩ := hwl.front
    rw [hpu]
    simp only [Res.bind_ok]
    rw [hpl]
    simp only [Res.bind_ok, gu1]
    by_cases c1 : ((i + 1 : ℕ) : Int) = 2 * r + 1 + (fu : Int)
    · rw [if_pos c1, gu2]
      simp only [Res.bind_ok, Res.pure_eq, Res.ensures_ok]
      have elo : i + 2 - (2 * r + 1) = fu + 1 := by omega
      have elo' : i + 1 - (2 * r + 1) = fu := by omega
      rw [elo'] at hwu hwl
      rw [elo]
      refine ⟨hu, hl, Du2, fl :: Dl2, gu3, hrl, hwu.evict, hwl.keep ?_, ?_⟩
      · intro h
        have := hdis fu (by simp) (by simp [h])
        omega
      · intro d h1 h2
        exact hdis d (by simp [h1]) h2
    · rw [if_neg c1]
      simp only [gl1, Res.bind_ok]
      have hku : Win v (fu :: Du2) (i + 2 - (2 * r + 1)) (i + 2) := by
        by_cases hsmall : i + 1 < 2 * r + 1
        · exact hwu.weaken (by omega)
        · exact (hwu.keep (by omega)).weaken (by omega)
      by_cases c2 : ((i + 1 : ℕ) : Int) = 2 * r + 1 + (fl : Int)
      · rw [if_pos c2, gl2]
        simp only [Res.bind_ok, Res.pure_eq, Res.ensures_ok]
        have elo : i + 2 - (2 * r + 1) = fl + 1 := by omega
        have elo' : i + 1 - (2 * r + 1) = fl := by omega
        rw [elo'] at hwl
        rw [elo] at hku ⊢
        refine ⟨hu, hl, fu :: Du2, Dl2, hru, gl3, hku, hwl.evict, ?_⟩
        intro d h1 h2
        exact hdis d h1 (by simp [h2])
      · rw [if_neg c2]
        simp only [Res.pure_eq, Res.ensures_ok]
        have hkl : Win (fun k => OrderDual.toDual (v k)) (fl :: Dl2) (i + 2 - (2 * r + 1)) (i + 2) := by
          by_cases hsmall : i + 1 < 2 * r + 1
          · exact hwl.weaken (by omega)
          · exact (hwl.keep (by omega)).weaken (by omega)
        exact ⟨hu, hl, fu :: Du2, fl :: Dl2, hru, hrl, hku, hkl, hdis⟩
  by_cases hgt : DataT.gt t[i + 1] t[i] = true
  · have hv : v i ≤ v (i + 1) := hlt.1 hgt
    rw [if_pos hgt]
    obtain ⟨d1, d2, d3, P, h1, h2, h3, h4, h5, h6⟩ := pop_push_spec (cmp := DataT.gt) hi
      (fun j hj => ht j (i + 1) hj hi) hdu wu (by omega) (by omega) hv
    obtain ⟨dl3, g1, g2, g3⟩ := push_spec hdl wl (by omega) (by omega) (show _ from hv)
    rw [h1]
    simp only [Res.bind_ok]
    rw [h2]
    simp only [Res.bind_ok, Res.pure_eq]
    refine main { s with du := d2 } d3 dl3 (P ++ [i + 1]) (Dl ++ [i + 1]) rfl rfl h3 g1 h4 g2 h5 g3 ?_
    intro d hd1 hd2
    rcases List.mem_append.mp hd1 with hd1 | hd1
    · rcases List.mem_append.mp hd2 with hd2 | hd2
      · exact absurd (hdisj d (h6 d hd1).1 hd2) (h6 d hd1).2
      · simpa using hd2
    · simpa using hd1
  · have hv : v (i + 1) ≤ v i := hlt.2 hgt
    rw [if_neg hgt]
    obtain ⟨d1, d2, d3, P, h1, h2, h3, h4, h5, h6⟩ := pop_push_spec (cmp := DataT.lt)
      (v := fun k => OrderDual.toDual (v k)) hi
      (fun j hj => ht (i + 1) j hi hj) hdl wl (by omega) (by omega) (show _ from hv)
    obtain ⟨du3, g1, g2, g3⟩ := push_spec hdu wu (by omega) (by omega) hv
    rw [h1]
    simp only [Res.bind_ok]
    rw [h2]
    simp only [Res.bind_ok, Res.pure_eq]
    refine main { s with dl := d2 } du3 d3 (Du ++ [i + 1]) (P ++ [i + 1]) rfl rfl g1 h3 g2 h4 g3 h5 ?_
    intro d hd1 hd2
    rcases List.mem_append.mp hd2 with hd2 | hd2
    · rcases List.mem_append.mp hd1 with hd1 | hd1
      · exact absurd (hdisj d hd1 (h6 d hd2).1) (h6 d hd2).2
      · simpa using hd1
    · simpa using hd2

theorem lemireBody1_spec {v : ℕ → β} {t : List α} (ht : OrdOk t v) {r i : ℕ} {s : LemireState α}
    {Du Dl : List ℕ} (hi : i + 1 < t.length) (h : LInv v t r (2 * r + 2) (i + 1) (i + 1) s Du Dl)
    (hdisj : ∀ d ∈ Du, d ∈ Dl → d = i) :
    (lemireBody1 t (r : Int) ((i + 1 : ℕ) : Int) s).Ensures fun s' =>
      ∃ Du' Dl', LInv v t r (2 * r + 2) (i + 2) (i + 2) s' Du' Dl' ∧
        ∀ d ∈ Du', d ∈ Dl' → d = i + 1 := by
  unfold lemireBody1
  have fin := fun (s2 : LemireState α) (e1 : s2.du = s.du) (e2 : s2.dl = s.dl)
      (o1 : Outputs v t s2.u r (i + 2 - (r + 1)))
      (o2 : Outputs (fun k => OrderDual.toDual (v k)) t s2.l r (i + 2 - (r + 1))) =>
    (queue_spec ht hi (s := s2) (e1 ▸ h.du) (e2 ▸ h.dl) h.wu h.wl hdisj).mono
      (Q := fun s' => ∃ Du' Dl', LInv v t r (2 * r + 2) (i + 2) (i + 2) s' Du' Dl' ∧
        ∀ d ∈ Du', d ∈ Dl' → d = i + 1) (by
        rintro s' ⟨hu, hl, Du', Dl', g1, g2, g3, g4, g5⟩
        exact ⟨Du', Dl', ⟨g1, g2, g3, g4, hu ▸ o1, hl ▸ o2⟩, g5⟩)
  by_cases hr : ((i + 1 : ℕ) : Int) > r
  · obtain ⟨fu, fl, Du', Dl', tu, tl, u', l', rfl, rfl, a1, a2, a3, a4, a5, a6, a7, a8⟩ :=
      write_spec h.du h.dl h.wu h.wl h.ou h.ol (by omega) (by omega) (by omega) (by omega)
    have e : i + 1 - r = i + 2 - (r + 1) := by omega
    have := fin { s with l := l', u := u' } rfl rfl (e ▸ a7) (e ▸ a8)
    simp only [if_pos hr, a1, Res.bind_ok, a2, a3, a4, a5, a6]
    exact this
  · have e : i + 1 - (r + 1) = i + 2 - (r + 1) := by omega
    have := fin s rfl rfl (e ▸ h.ou) (e ▸ h.ol)
    simp only [if_neg hr]
    exact this

theorem lemireBody2_spec {v : ℕ → β} {t : List α} {r i : ℕ} {s : LemireState α}
    {Du Dl : List ℕ} (hn : t.length ≤ i) (hi : i ≤ t.length + r) (hr : r + 1 ≤ t.length)
    (h : LInv v t r (2 * r + 2) i t.length s Du Dl) :
    (lemireBody2 t (r : Int) (i : Int) s).Ensures fun s' =>
      ∃ Du' Dl', LInv v t r (2 * r + 2) (i + 1) t.length s' Du' Dl' := by
  unfold lemireBody2
  obtain ⟨fu, fl, Du', Dl', tu, tl, u', l', rfl, rfl, a1, a2, a3, a4, a5, a6, a7, a8⟩ :=
    write_spec h.du h.dl h.wu h.wl h.ou h.ol (by omega) (by omega) (by omega) (by omega)
  rw [a1]
  simp only [Res.bind_ok, a2, a3, a4, a5, a6]
  have e : i - r = i + 1 - (r + 1) := by omega
  rw [e] at a7 a8
  obtain ⟨gu1, du2, gu2, gu3⟩ := repN_cons h.du
  obtain ⟨gl1, dl2, gl2, gl3⟩ := repN_cons h.dl
  obtain ⟨b1, b2, _⟩ := h.wu.front
  obtain ⟨c1, c2, _⟩ := h.wl.front
  have evict : ∀ {w : ℕ → β} {f : ℕ} {D : List ℕ}, Win w (f :: D) (i - (2 * r + 1)) t.length →
      ((i : Int) - f ≥ 2 * r + 1 → Win w D (i + 1 - (2 * r + 1)) t.length) ∧
      (¬ ((i : Int) - f ≥ 2 * r + 1) → Win w (f :: D) (i + 1 - (2 * r + 1)) t.length) := by
    intro w f D hw
    obtain ⟨x1, _, _⟩ := hw.front
    constructor
    · intro hf
      have e1 : i - (2 * r + 1) = f := by omega
      have e2 : i + 1 - (2 * r + 1) = f + 1 := by omega
      rw [e1] at hw
      rw [e2]
      exact hw.evict
    · intro hf
      by_cases hsmall : i < 2 * r + 1
      · exact hw.weaken (by omega)
      · exact (hw.keep (by omega)).weaken (by omega)
  have evict' : ∀ {w : ℕ → βᵒᵈ} {f : ℕ} {D : List ℕ}, Win w (f :: D) (i - (2 * r + 1)) t.length →
      ((i : Int) - f ≥ 2 * r + 1 → Win w D (i + 1 - (2 * r + 1)) t.length) ∧
      (¬ ((i : Int) - f ≥ 2 * r + 1) → Win w (f :: D) (i + 1 - (2 * r + 1)) t.length) := by
    intro w f D hw
    obtain ⟨x1, _, _⟩ := hw.front
    constructor
    · intro hf
      have e1 : i - (2 * r + 1) = f := by omega
      have e2 : i + 1 - (2 * r + 1) = f + 1 := by omega
      rw [e1] at hw
      rw [e2]
      exact hw.evict
    · intro hf
      by_cases hsmall : i < 2 * r + 1
      · exact hw.weaken (by omega)
      · exact (hw.keep (by omega)).weaken (by omega)
  by_cases k1 : (i : Int) - fu ≥ 2 * r + 1 <;> by_cases k2 : (i : Int) - fl ≥ 2 * r + 1
  · simp only [k1, k2, if_true, gu2, gl2, Res.bind_ok, Res.pure_eq, Res.ensures_ok]
    exact ⟨Du', Dl', gu3, gl3, (evict h.wu).1 k1, (evict' h.wl).1 k2, a7, a8⟩
  · simp only [k1, k2, if_true, if_false, gu2, Res.bind_ok, Res.pure_eq, Res.ensures_ok]
    exact ⟨Du', _, gu3, h.dl, (evict h.wu).1 k1, (evict' h.wl).2 k2, a7, a8⟩
  · simp only [k1, k2, if_true, if_false, gl2, Res.bind_ok, Res.pure_eq, Res.ensures_ok]
    exact ⟨_, Dl', h.du, gl3, (evict h.wu).2 k1, (evict' h.wl).1 k2, a7, a8⟩
  · simp only [k1, k2, if_false, Res.bind_ok, Res.pure_eq, Res.ensures_ok]
    exact ⟨_, _, h.du, h.dl, (evict h.wu).2 k1, (evict' h.wl).2 k2, a7, a8⟩

theorem lemire_spec {v : ℕ → β} {t l0 u0 : List α} (ht : OrdOk t v) {r : ℕ} (hr : r + 1 ≤ t.length)
    (hl0 : l0.length = t.length) (hu0 : u0.length = t.length) :
    (lowerUpperLemire t (len t) (r : Int) l0 u0).Ensures fun lu =>
      Outputs (fun k => OrderDual.toDual (v k)) t lu.1 r t.length ∧
      Outputs v t lu.2 r t.length := by
  unfold lowerUpperLemire
  have ec : (2 * (r : Int) + 2) = ((2 * r + 2 : ℕ) : Int) := by push_cast; ring
  rw [ec]
  have h0 : RepN (2 * r + 2) (Deque.new ((2 * r + 2 : ℕ) : Int)) [] := rep_new _
  obtain ⟨d, hd1, hd2⟩ := repN_push h0 (by simp) 0
  simp only [Nat.cast_zero, List.nil_append] at hd1 hd2
  rw [hd1]
  simp only [Res.bind_ok]
  have w0 : ∀ {γ : Type} [LinearOrder γ] (w : ℕ → γ), Win w [0] (1 - (2 * r + 1)) 1 := by
    intro γ _ w
    refine ⟨List.pairwise_singleton _ _, ?_, List.pairwise_singleton _ _, ?_⟩
    · intro d hd; simp at hd; omega
    · intro j _ hj
      obtain rfl : j = 0 := by omega
      exact ⟨0, by simp, le_refl _, le_refl _⟩
  refine Res.Ensures.bind (forInt_ensures (fun i s => ∃ Du Dl,
      LInv v t r (2 * r + 2) i.toNat i.toNat s Du Dl ∧ ∀ d ∈ Du, d ∈ Dl → d = i.toNat - 1) ?_ ?_ ?_) ?_
  · simp only [len]; omega
  · refine ⟨[0], [0], ⟨hd2, hd2, w0 v, w0 _, ⟨hu0, ?_⟩, ⟨hl0, ?_⟩⟩, ?_⟩
    · intro q hq; simp at hq
    · intro q hq; simp at hq
    · intro d hd _; simpa using hd
  · rintro i s hi1 hi2 ⟨Du, Dl, hI, hdis⟩
    obtain ⟨k, rfl⟩ : ∃ k : ℕ, i = ((k + 1 : ℕ) : Int) := ⟨(i - 1).toNat, by omega⟩
    have hk : k + 1 < t.length := by simp only [len] at hi2; omega
    have e1 : (((k + 1 : ℕ) : Int)).toNat = k + 1 := by omega
    have e2 : (((k + 1 : ℕ) : Int) + 1).toNat = k + 2 := by omega
    rw [e1] at hI hdis
    rw [e2]
    exact lemireBody1_spec ht hk hI (fun d h1 h2 => by have := hdis d h1 h2; omega)
  rintro s ⟨Du, Dl, hI, _⟩
  refine Res.Ensures.bind (forInt_ensures (fun i s => ∃ Du Dl,
      LInv v t r (2 * r + 2) i.toNat t.length s Du Dl) ?_ ?_ ?_) ?_
  · omega
  · have e1 : (len t).toNat = t.length := by simp [len]
    rw [e1] at hI ⊢
    exact ⟨Du, Dl, hI⟩
  · rintro i s hi1 hi2 ⟨Du, Dl, hI⟩
    obtain ⟨k, rfl⟩ := Int.eq_ofNat_of_zero_le (show 0 ≤ i by have := len_nonneg t; omega)
    have e2 : ((k : Int) + 1).toNat = k + 1 := by omega
    simp only [Int.toNat_natCast] at hI
    rw [e2]
    simp only [len] at hi1 hi2
    exact lemireBody2_spec (by omega) (by omega) hr hI
  rintro s ⟨Du, Dl, hI⟩
  simp only [Res.pure_eq, Res.ensures_ok]
  have e : (len t + (r : Int) + 1).toNat - (r + 1) = t.length := by simp only [len]; omega
  have h1 := hI.ou
  have h2 := hI.ol
  rw [e] at h1 h2
  exact ⟨h2, h1⟩

end code

end Onex
