import Verif.Proofs.UcrPoint

/-!
# The whole UCR search
-/

namespace Onex

open Spec DataT

variable {r m : ℕ}

/-! ## Preparing the query -/

theorem getD_take {x : List ℝ} {n k : ℕ} (hk : k < n) : (x.take n).getD k 0 = x.getD k 0 := by
  simp [List.getD, hk]

theorem ext_fins {l : List Ex} {x : List ℝ} (hl : l.length = x.length) (h : ∀ k, k < x.length → l[k]? = some (F.fin (x.getD k 0))) :
    l = fins x := by
  apply List.ext_getElem?
  intro k
  rcases Nat.lt_or_ge k x.length with hk | hk
  · rw [h k hk]
    simp [fins, hk]
  · rw [List.getElem?_eq_none (by omega), List.getElem?_eq_none (by simpa using hk)]

theorem readQuery_spec {query : List ℝ} (hq : m ≤ query.length) {q0 : List Ex} (h0 : q0.length = m) :
    (readQuery (m : Int) (fins query) q0).Ensures fun s => s.q = fins (query.take m) ∧ s.ex = F.fin (query.take m).sum ∧
      s.ex2 = F.fin ((query.take m).map fun x => x * x).sum := by
  unfold readQuery
  refine Res.Ensures.mono (forBrk_ensures
    (fun i s => s.q.length = m ∧ (∀ k : ℕ, (k : Int) < i → s.q[k]? = some (F.fin (query.getD k 0))) ∧
      s.ex = F.fin (query.take i.toNat).sum ∧ s.ex2 = F.fin ((query.take i.toNat).map fun x => x * x).sum ∧
      s.rest = fins (query.drop i.toNat))
    (fun _ => False) (by omega)
    ⟨h0, by intro k hk; omega, by simp, by simp, by simp⟩
    (by
      rintro i s h1 h2 ⟨a1, a2, a3, a4, a5⟩
      obtain ⟨i, rfl⟩ : ∃ n : ℕ, i = n := ⟨i.toNat, by omega⟩
      have hi : i < query.length := by omega
      simp only [Int.toNat_natCast] at a3 a4 a5
      have hd : query.drop i = query.getD i 0 :: query.drop (i + 1) := by
        rw [List.drop_eq_getElem_cons hi]
        simp [List.getD, hi]
      have ht : query.take (i + 1) = query.take i ++ [query.getD i 0] := by
        rw [List.take_succ_eq_append_getElem hi]
        simp [List.getD, hi]
      rw [hd] at a5
      have a5' : s.rest = F.fin (query.getD i 0) :: fins (query.drop (i + 1)) := by rw [a5]; rfl
      rw [a5']
      simp only
      rw [vset_nat _ (by omega)]
      simp only [Res.bind_ok, Res.pure_eq, Res.ensures_ok]
      have ei : ((i : Int) + 1).toNat = i + 1 := by omega
      rw [ei]
      refine ⟨by simpa using a1, ?_, ?_, ?_, rfl⟩
      · intro k hk
        by_cases e : k = i
        · subst e
          rw [List.getElem?_set_self (by omega)]
        · rw [List.getElem?_set_ne (fun e' => e e'.symm)]
          exact a2 k (by omega)
      · rw [a3, add_fin, ht, List.sum_append]
        simp
      · rw [a4, mul_fin, add_fin, ht, List.map_append, List.sum_append]
        simp)) ?_
  rintro s (⟨a1, a2, a3, a4, _⟩ | h)
  · simp only [Int.toNat_natCast] at a3 a4
    refine ⟨?_, a3, a4⟩
    have hl : (query.take m).length = m := by simp; omega
    refine ext_fins (by rw [a1, hl]) ?_
    intro k hk
    rw [hl] at hk
    rw [a2 k (by omega), getD_take hk]
  · exact h.elim

theorem prepare_spec {query : List ℝ} (hm : 1 ≤ m) (hq : m ≤ query.length) (hv : Varies (query.take m)) (hr : r < m) (junk : Ex)
    {o : List ℕ} (ho : o.Perm (List.range m)) :
    (prepare junk (o.map Int.ofNat) (fins query) m r).Ensures fun Q => QueryOk Q m r (znorm (query.take m)) := by
  have hl : (query.take m).length = m := by simp; omega
  have hol : o.length = m := by simpa using ho.length_eq
  have homem : ∀ (i : ℕ) (hi : i < o.length), o[i] < m := by
    intro i hi
    have := ho.mem_iff.mp (List.getElem_mem hi)
    simpa using this
  have hne : query.take m ≠ [] := by
    intro h
    rw [h] at hl
    simp at hl
    omega
  have hσ := stdev_pos.mpr hv
  unfold prepare
  simp only [Int.toNat_natCast]
  refine Res.Ensures.bind (readQuery_spec hq (by simp)) ?_
  rintro ⟨q, ex, ex2, rest⟩ ⟨h1, h2, h3⟩
  dsimp only at h1 h2 h3 ⊢
  subst h1 h2 h3
  generalize query.take m = w at *
  have e1 := meanOf_eq hne
  have e2 := stdOf_eq hne
  rw [hl] at e1 e2
  rw [e1, e2]
  have hnorm : (forInt 0 (m : Int) (fins w : List Ex) fun i q => do
      let x ← vget q i
      vset q i (div (sub x (F.fin (average w))) (F.fin (stdev w)))) = .ok (fins (znorm w)) := by
    apply Res.Ensures.eq_ok
    refine Res.Ensures.mono (forInt_ensures (fun i q => q.length = m ∧
      (∀ k : ℕ, k < m → (k : Int) < i → q[k]? = some (F.fin ((znorm w).getD k 0))) ∧
      ∀ k : ℕ, k < m → i ≤ k → q[k]? = some (F.fin (w.getD k 0))) (by omega)
      ⟨by simpa using hl, by intro k _ hk; omega, ?_⟩ ?_) ?_
    · intro k hk _
      have : k < w.length := by omega
      simp [fins, this]
    · rintro i q h1 h2 ⟨a1, a2, a3⟩
      obtain ⟨i, rfl⟩ : ∃ n : ℕ, i = n := ⟨i.toNat, by omega⟩
      rw [vget_of_getElem? (by omega) (a3 i (by omega) le_rfl)]
      simp only [Res.bind_ok]
      rw [vset_nat _ (by omega), Res.ensures_ok, sub_fin, div_fin _ _ hσ.ne']
      refine ⟨by simpa using a1, ?_, ?_⟩
      · intro k hk hki
        by_cases e : k = i
        · subst e
          rw [List.getElem?_set_self (by omega), znorm_getD w (by omega)]
          rfl
        · rw [List.getElem?_set_ne (fun e' => e e'.symm)]
          exact a2 k hk (by omega)
      · intro k hk hki
        rw [List.getElem?_set_ne (by omega)]
        exact a3 k hk (by omega)
    · rintro q ⟨a1, a2, _⟩
      refine ext_fins (by rw [a1, znorm_length, hl]) ?_
      intro k hk
      rw [znorm_length, hl] at hk
      exact a2 k hk (by omega)
  rw [hnorm]
  simp only [Res.bind_ok]
  have hzl : (znorm w).length = m := by rw [znorm_length, hl]
  obtain ⟨lo, up, h4, henv⟩ := lemire_env (ρ := Rounding.exact) (znorm w) (r := r) (l0 := List.replicate m junk)
    (u0 := List.replicate m junk) (by omega) (by simp [hl]) (by simp [hl])
  have hlen : len (fins (znorm w) : List Ex) = (m : Int) := by
    rw [len_fins]
    simp only [len]
    omega
  rw [hlen] at h4
  rw [h4]
  simp only [Res.bind_ok]
  have hlo := henv.lenLo
  have hup := henv.lenUp
  have hord : ∀ (i : ℕ) (hi : i < o.length), vget (o.map Int.ofNat) (i : Int) = .ok (o[i] : Int) := by
    intro i hi
    rw [vget_nat (by simpa using hi)]
    simp
  refine Res.Ensures.bind (P := fun s : List Ex × List Ex × List Ex =>
      (∀ (i : ℕ) (hi : i < o.length), s.1[i]? = some (F.fin ((znorm w).getD o[i] 0))) ∧
      (∀ (i : ℕ) (hi : i < o.length), s.2.1[i]? = some (F.fin (up.getD o[i] 0))) ∧
      (∀ (i : ℕ) (hi : i < o.length), s.2.2[i]? = some (F.fin (lo.getD o[i] 0)))) ?_ ?_
  · refine Res.Ensures.mono (forInt_ensures (fun n s => s.1.length = m ∧ s.2.1.length = m ∧ s.2.2.length = m ∧
      (∀ (i : ℕ) (hi : i < o.length), (i : Int) < n → s.1[i]? = some (F.fin ((znorm w).getD o[i] 0))) ∧
      (∀ (i : ℕ) (hi : i < o.length), (i : Int) < n → s.2.1[i]? = some (F.fin (up.getD o[i] 0))) ∧
      (∀ (i : ℕ) (hi : i < o.length), (i : Int) < n → s.2.2[i]? = some (F.fin (lo.getD o[i] 0)))) (by omega)
      ⟨by simp, by simp, by simp, by intro i _ hi; omega, by intro i _ hi; omega, by intro i _ hi; omega⟩ ?_) ?_
    · rintro i s h1 h2 ⟨a1, a2, a3, a4, a5, a6⟩
      obtain ⟨i, rfl⟩ : ∃ n : ℕ, i = n := ⟨i.toNat, by omega⟩
      have hi : i < o.length := by omega
      have hoi := homem i hi
      rw [hord i hi]
      simp only [Res.bind_ok]
      rw [vget_fins (by omega), vget_fins (by omega), vget_fins (by omega)]
      simp only [Res.bind_ok]
      rw [vset_nat _ (by omega)]
      simp only [Res.bind_ok]
      rw [vset_nat _ (by omega)]
      simp only [Res.bind_ok]
      rw [vset_nat _ (by omega)]
      simp only [Res.bind_ok, Res.pure_eq, Res.ensures_ok]
      have put : ∀ (l : List Ex) (g : ℕ → ℝ), l.length = m →
          (∀ (k : ℕ) (hk : k < o.length), (k : Int) < i → l[k]? = some (F.fin (g o[k]))) →
          ∀ (k : ℕ) (hk : k < o.length), (k : Int) < (i : Int) + 1 → (l.set i (F.fin (g o[i])))[k]? = some (F.fin (g o[k])) := by
        intro l g hl h k hk hki
        by_cases e : k = i
        · subst e
          rw [List.getElem?_set_self (by omega)]
        · rw [List.getElem?_set_ne (fun e' => e e'.symm)]
          exact h k hk (by omega)
      exact ⟨by simpa using a1, by simpa using a2, by simpa using a3, put _ (fun k => (znorm w).getD k 0) a1 a4,
        put _ (fun k => up.getD k 0) a2 a5, put _ (fun k => lo.getD k 0) a3 a6⟩
    · rintro s ⟨_, _, _, a4, a5, a6⟩
      exact ⟨fun i hi => a4 i hi (by omega), fun i hi => a5 i hi (by omega), fun i hi => a6 i hi (by omega)⟩
  · rintro ⟨qo, uo, lo'⟩ ⟨a1, a2, a3⟩
    simp only [Res.pure_eq, Res.ensures_ok]
    refine ⟨rfl, rfl, rfl, hzl, o, fun k => lo.getD k 0, fun k => up.getD k 0, rfl, ho, ?_, ?_, ?_, ?_⟩
    · exact fun i hi => vget_of_getElem? (by omega) (a1 i hi)
    · exact fun i hi => vget_of_getElem? (by omega) (a2 i hi)
    · exact fun i hi => vget_of_getElem? (by omega) (a3 i hi)
    · intro k j hk hj hin
      have hmem : (znorm w).getD j 0 ∈ window (znorm w) r k := by
        have : j < (znorm w).length := by omega
        exact ⟨j, by rw [List.getD_eq_getElem?_getD, List.getElem?_eq_getElem this]; rfl, hin.1, hin.2⟩
      exact ⟨(henv.low k (by omega)).2 hmem, (henv.upp k (by omega)).2 hmem⟩

/-! ## Chunks -/

/-- Going through the points of a chunk. -/
theorem chunk_spec {Q : UcrQuery Ex} {G : ℕ → ℝ → Int → Prop} {x lo up : List ℝ} (hQm : Q.m = m) (hm : 1 ≤ m)
    {epoch it : Int} {base : ℕ} (hbase : it * (epoch - m + 1) = base)
    (hG : ∀ p, p + m ≤ x.length → Looks r m Q (windowAt x p m) (base + p) (G p) (G (p + 1)))
    (henv : IsEnvelope x lo up r) {b2 l2 u2 : List Ex} {s : UcrState Ex} (hs : Sized m s) {v : ℝ} (hv : s.bsf = F.fin v)
    (hbest : G 0 v s.loc) :
    (forInt 0 (x.length : Int) { s with ex := zero, ex2 := zero }
      (ucrPoint epoch Q (fins x ++ b2) (fins lo ++ l2) (fins up ++ u2) it)).Ensures (PointInv m G x x.length) := by
  have h := forInt_ensures (lo := 0) (hi := (x.length : Int)) (s := { s with ex := zero, ex2 := zero })
    (body := ucrPoint epoch Q (fins x ++ b2) (fins lo ++ l2) (fins up ++ u2) it)
    (fun n s => PointInv m G x n.toNat s) (by omega)
    ⟨⟨hs.t, hs.cb, hs.cb1, hs.cb2, hs.tz⟩, by intro k hk; simp at hk, by simp [seg], by simp [seg],
      ⟨v, hv, by simpa using hbest⟩⟩
    (by
      intro n s h1 h2 hinv
      obtain ⟨n, rfl⟩ : ∃ i : ℕ, n = i := ⟨n.toNat, by omega⟩
      have e : ((n : Int) + 1).toNat = n + 1 := by omega
      rw [e]
      exact point_spec hQm hm hbase hG henv (by omega) (by simpa using hinv))
  simpa using h

/-- Up to position `n` the buffer holds the values of `D`. -/
def BufHas (b : List Ex) (D : List ℝ) (n : ℕ) : Prop := ∀ k, k < n → k < D.length → b[k]? = some (F.fin (D.getD k 0))

theorem BufHas.set {b : List Ex} {D : List ℝ} {n : ℕ} (h : BufHas b D n) (hn : n < b.length) :
    BufHas (b.set n (F.fin (D.getD n 0))) D (n + 1) := by
  intro k hk hkD
  by_cases e : k = n
  · subst e
    rw [List.getElem?_set_self hn]
  · rw [List.getElem?_set_ne (fun e' => e e'.symm)]
    exact h k (by omega) hkD

theorem drop_cons {D : List ℝ} {n : ℕ} (h : n < D.length) :
    (fins (D.drop n) : List Ex) = F.fin (D.getD n 0) :: fins (D.drop (n + 1)) := by
  have e : D.drop n = D.getD n 0 :: D.drop (n + 1) := by
    rw [List.drop_eq_getElem_cons h]
    simp [List.getD, h]
  rw [e]
  rfl

theorem fillFirst_zero {N : ℕ} {data : List ℝ} {b : List Ex} (hm : 1 ≤ m) (hN : m ≤ N) (hb : b.length = N) :
    (fillFirst N m 0 b (fins data)).Ensures fun x => x.1.length = N ∧ BufHas x.1 data (m - 1) ∧ x.2 = fins (data.drop (m - 1)) := by
  unfold fillFirst
  rw [if_pos rfl]
  refine Res.Ensures.mono (forInt_ensures (fun k x => x.1.length = N ∧ BufHas x.1 data k.toNat ∧ x.2 = fins (data.drop k.toNat))
    (by omega) ⟨hb, by intro k hk; simp at hk, by simp⟩ ?_) ?_
  · rintro k ⟨b, rest⟩ h1 h2 ⟨a1, a2, a3⟩
    obtain ⟨k, rfl⟩ : ∃ i : ℕ, k = i := ⟨k.toNat, by omega⟩
    simp only [Int.toNat_natCast] at a1 a2 a3
    have ek : ((k : Int) + 1).toNat = k + 1 := by omega
    rw [ek]
    dsimp only
    rcases Nat.lt_or_ge k data.length with hk | hk
    · rw [a3, drop_cons hk]
      dsimp only
      rw [vset_nat _ (by omega)]
      simp only [Res.bind_ok, Res.pure_eq, Res.ensures_ok]
      exact ⟨by simpa using a1, a2.set (by omega), trivial⟩
    · rw [a3, List.drop_eq_nil_of_le hk, List.drop_eq_nil_of_le (by omega)]
      simp only [fins, List.map_nil, Res.ensures_ok]
      refine ⟨a1, ?_, trivial⟩
      intro k' h3 h4
      exact a2 k' (by omega) h4
  · rintro x ⟨a1, a2, a3⟩
    have e : ((m : Int) - 1).toNat = m - 1 := by omega
    rw [e] at a2 a3
    exact ⟨a1, a2, a3⟩

theorem fillFirst_next {N : ℕ} {it : Int} {b rest : List Ex} (hit : it ≠ 0) (hm : 1 ≤ m) (hN : m ≤ N) (hb : b.length = N) :
    (fillFirst N m it b rest).Ensures fun x => x.1.length = N ∧ (∀ k, k < m - 1 → x.1[k]? = b[N - m + 1 + k]?) ∧ x.2 = rest := by
  unfold fillFirst
  rw [if_neg hit]
  refine Res.Ensures.bind (forInt_ensures (fun i x => x.length = N ∧ (∀ k : ℕ, (k : Int) < i → x[k]? = b[N - m + 1 + k]?) ∧
    ∀ k : ℕ, i ≤ (k : Int) → x[k]? = b[k]?) (by omega) ⟨hb, by intro k hk; omega, fun _ _ => rfl⟩ ?_) ?_
  · rintro i x h1 h2 ⟨a1, a2, a3⟩
    obtain ⟨i, rfl⟩ : ∃ n : ℕ, i = n := ⟨i.toNat, by omega⟩
    have e : (N : Int) - (m : Int) + 1 + (i : Int) = ((N - m + 1 + i : ℕ) : Int) := by omega
    have hlt : N - m + 1 + i < x.length := by omega
    rw [e, vget_nat hlt]
    simp only [Res.bind_ok]
    rw [vset_nat _ (by omega), Res.ensures_ok]
    refine ⟨by simpa using a1, ?_, ?_⟩
    · intro k hk
      by_cases ek : k = i
      · subst ek
        rw [List.getElem?_set_self (by omega), ← a3 _ (by omega), List.getElem?_eq_getElem hlt]
      · rw [List.getElem?_set_ne (fun e' => ek e'.symm)]
        exact a2 k (by omega)
    · intro k hk
      rw [List.getElem?_set_ne (by omega)]
      exact a3 k (by omega)
  · rintro x ⟨a1, a2, _⟩
    simp only [Res.pure_eq, Res.ensures_ok]
    refine ⟨a1, ?_, trivial⟩
    intro k hk
    exact a2 k (by omega)

theorem fillRest_spec {N : ℕ} {D : List ℝ} {b : List Ex} (hm : 1 ≤ m) (hN : m ≤ N) (hb : b.length = N) (hf : BufHas b D (m - 1)) :
    (fillRest N m b (fins (D.drop (m - 1)))).Ensures fun x => x.1.length = N ∧ ∃ ep : ℕ, x.2.2 = ep ∧ BufHas x.1 D ep ∧
      x.2.1 = fins (D.drop ep) ∧ ep = max (m - 1) (min N D.length) := by
  unfold fillRest
  refine Res.Ensures.mono (forBrk_ensures
    (fun i x => x.1.length = N ∧ x.2.2 = i ∧ BufHas x.1 D i.toNat ∧ x.2.1 = fins (D.drop i.toNat) ∧
      (i = (m : Int) - 1 ∨ i.toNat ≤ D.length))
    (fun x => x.1.length = N ∧ ∃ ep : ℕ, x.2.2 = (ep : Int) ∧ BufHas x.1 D ep ∧ x.2.1 = fins (D.drop ep) ∧ ep = max (m - 1) (min N D.length))
    (by omega) ?_ ?_) ?_
  · have e : ((m : Int) - 1).toNat = m - 1 := by omega
    rw [e]
    exact ⟨hb, rfl, hf, rfl, Or.inl rfl⟩
  · rintro i ⟨b, rest, e⟩ h1 h2 ⟨a1, a2, a3, a4, a5⟩
    obtain ⟨i, rfl⟩ : ∃ n : ℕ, i = n := ⟨i.toNat, by omega⟩
    simp only [Int.toNat_natCast] at a1 a2 a3 a4 a5
    subst a2
    dsimp only
    rcases Nat.lt_or_ge i D.length with hk | hk
    · rw [a4, drop_cons hk]
      dsimp only
      rw [vset_nat _ (by omega)]
      simp only [Res.bind_ok, Res.pure_eq, Res.ensures_ok]
      have ek : ((i : Int) + 1).toNat = i + 1 := by omega
      rw [ek]
      exact ⟨by simpa using a1, trivial, a3.set (by omega), rfl, Or.inr hk⟩
    · have e0 : rest = [] := by
        rw [a4, List.drop_eq_nil_of_le hk]
        rfl
      subst e0
      simp only [Res.ensures_ok]
      exact ⟨a1, i, rfl, a3, a4, by omega⟩
  · rintro x (⟨a1, a2, a3, a4, a5⟩ | h)
    · simp only [Int.toNat_natCast] at a3 a4 a5
      exact ⟨a1, N, a2, a3, a4, by omega⟩
    · exact h

/-- What holds at the start of round `it`. -/
structure LoopInv (m N : ℕ) (G : ℕ → ℝ → Int → Prop) (data : List ℝ) (it : ℕ) (x : UcrRun Ex) : Prop where
  round : x.it = it
  buf : x.buffer.length = N
  lbuf : x.lBuff.length = N
  ubuf : x.uBuff.length = N
  sized : Sized m x.s
  best : ∃ v : ℝ, x.s.bsf = F.fin v ∧ G (it * (N - m + 1)) v x.s.loc
  first : it = 0 → x.rest = fins data
  next : it ≠ 0 → it * (N - m + 1) + (m - 1) ≤ data.length ∧ x.rest = fins (data.drop (it * (N - m + 1) + (m - 1))) ∧
    ∀ k, k < m - 1 → x.buffer[N - m + 1 + k]? = some (F.fin (data.getD (it * (N - m + 1) + k) 0))

theorem drop_getD {x : List ℝ} {a k : ℕ} : (x.drop a).getD k 0 = x.getD (a + k) 0 := by
  simp [List.getD]

/-- Both ways of getting the first values of a chunk. -/
theorem first_spec {N it : ℕ} {G : ℕ → ℝ → Int → Prop} {data : List ℝ} {x : UcrRun Ex} (hm : 1 ≤ m) (hN : m ≤ N)
    (h : LoopInv m N G data it x) :
    (fillFirst N m x.it x.buffer x.rest).Ensures fun y => y.1.length = N ∧
      BufHas y.1 (data.drop (it * (N - m + 1))) (m - 1) ∧ y.2 = fins ((data.drop (it * (N - m + 1))).drop (m - 1)) := by
  rw [h.round]
  by_cases hit : it = 0
  · subst hit
    rw [h.first rfl, Nat.zero_mul, List.drop_zero]
    exact fillFirst_zero hm hN h.buf
  · obtain ⟨h1, h2, h3⟩ := h.next hit
    refine (fillFirst_next (by omega) hm hN h.buf).mono ?_
    rintro y ⟨a1, a2, a3⟩
    refine ⟨a1, ?_, ?_⟩
    · intro k hk _
      rw [a2 k hk, h3 k hk, drop_getD]
    · rw [a3, h2, List.drop_drop]

theorem loop_spec {N : ℕ} {Q : UcrQuery Ex} {G : ℕ → ℝ → Int → Prop} {data : List ℝ} (hQm : Q.m = m) (hQr : Q.r = r) (hm : 1 ≤ m)
    (hG : ∀ p, p + m ≤ data.length → Looks r m Q (windowAt data p m) p (G p) (G (p + 1)))
    (hr : r < m) (hN : m ≤ N) (hdot : N - m + 1 ≤ 1000000) :
    ∀ (fuel it : ℕ) (x : UcrRun Ex), LoopInv m N G data it x → data.length < it * (N - m + 1) + fuel →
      (ucrLoop N Q fuel x).Ensures fun y => (∃ v : ℝ, y.s.bsf = F.fin v ∧ G (data.length + 1 - m) v y.s.loc) ∧
        y.it * ((N : Int) - m + 1) + y.ep = ((max data.length (m - 1) : ℕ) : Int) := by
  intro fuel
  induction fuel with
  | zero =>
    intro it x h hf
    exfalso
    by_cases hit : it = 0
    · subst hit
      omega
    · have := (h.next hit).1
      omega
  | succ fuel ih =>
    intro it x h hf
    have hbound : it = 0 ∨ it * (N - m + 1) + (m - 1) ≤ data.length := by
      by_cases hit : it = 0
      · exact Or.inl hit
      · exact Or.inr (h.next hit).1
    have hcast : x.it * ((N : Int) - m + 1) = ((it * (N - m + 1) : ℕ) : Int) := by
      rw [h.round]
      push_cast [Nat.cast_sub hN]
      ring
    have hnext : (it + 1) * (N - m + 1) = it * (N - m + 1) + (N - m + 1) := by ring
    unfold ucrLoop
    rw [hQm]
    refine Res.Ensures.bind (first_spec (by omega) hN h) ?_
    rintro ⟨b1, rest1⟩ ⟨a1, a2, a3⟩
    dsimp only at a1 a2 a3 ⊢
    subst a3
    refine Res.Ensures.bind (fillRest_spec (by omega) hN a1 a2) ?_
    rintro ⟨b, rest, ep⟩ ⟨c1, n, c2, c3, c4, c5⟩
    dsimp only at c1 c2 c3 c4 ⊢
    subst c2 c4
    obtain ⟨v, hv, hbest⟩ := h.best
    have hbase0 : it = 0 → it * (N - m + 1) = 0 := by
      intro e
      rw [e, Nat.zero_mul]
    have hround := h.round
    rw [List.length_drop] at c5
    generalize hbase : it * (N - m + 1) = base at *
    by_cases hstop : (n : Int) ≤ (m : Int) - 1
    · rw [if_pos hstop, Res.pure_eq, Res.ensures_ok]
      dsimp only
      have e : data.length + 1 - m = base := by omega
      refine ⟨⟨v, hv, by rw [e]; exact hbest⟩, ?_⟩
      rw [hcast]
      omega
    rw [if_neg hstop]
    have hn : n = min N (data.length - base) := by omega
    set X := (data.drop base).take n with hX
    have hXl : X.length = n := by
      simp [hX]
      omega
    have hbX : b = fins X ++ b.drop n := by
      have : b.take n = fins X := by
        refine ext_fins (by simp; omega) ?_
        intro k hk
        rw [hXl] at hk
        rw [List.getElem?_take_of_lt hk, c3 k hk (by simp; omega), hX, getD_take hk]
      rw [← this, List.take_append_drop]
    obtain ⟨lo, up, e1, henv⟩ := lemire_env (ρ := Rounding.exact) X (r := r) (l0 := x.lBuff.take n) (u0 := x.uBuff.take n)
      (by omega) (by rw [List.length_take, h.lbuf]; omega) (by rw [List.length_take, h.ubuf]; omega)
    have e2 := lemire_ext (t2 := b.drop n) (l2 := x.lBuff.drop n) (u2 := x.uBuff.drop n) e1
    rw [List.take_append_drop, List.take_append_drop, ← hbX] at e2
    have hlen : len (fins X : List Ex) = (n : Int) := by
      rw [len_fins]
      simp only [len]
      omega
    rw [hlen] at e2
    rw [hQr, e2]
    simp only [Res.bind_ok]
    have hlo := henv.lenLo
    have hup := henv.lenUp
    rw [if_neg (by
      have e : (N : Int) - (m : Int) + 1 = ((N - m + 1 : ℕ) : Int) := by omega
      rw [e]
      have hd : (1000000 : Int).tdiv ((N - m + 1 : ℕ) : Int) = ((1000000 / (N - m + 1) : ℕ) : Int) := by
        rw [Int.tdiv_eq_ediv_of_nonneg (by norm_num)]
        push_cast
        rfl
      rw [hd]
      have := Nat.div_pos hdot (by omega)
      omega)]
    have hchunk := chunk_spec (G := fun p => G (base + p)) (x := X) (lo := lo) (up := up) hQm hm (epoch := (N : Int)) (it := x.it)
      (base := base) hcast
      (by
        intro p hp
        have e : windowAt X p m = windowAt data (base + p) m := by
          unfold windowAt
          rw [hX, List.drop_take, List.take_take, List.drop_drop, Nat.min_eq_left (by omega)]
        rw [e]
        exact hG (base + p) (by omega))
      henv (b2 := b.drop n) (l2 := x.lBuff.drop n) (u2 := x.uBuff.drop n) h.sized hv hbest
    rw [hXl, ← hbX] at hchunk
    refine Res.Ensures.bind hchunk ?_
    intro s hs
    obtain ⟨v', hv', hbest'⟩ := hs.best
    by_cases hfin : (n : Int) < (N : Int)
    · rw [if_pos hfin, Res.pure_eq, Res.ensures_ok]
      dsimp only
      have e : data.length + 1 - m = base + (n - (m - 1)) := by omega
      refine ⟨⟨v', hv', by rw [e]; exact hbest'⟩, ?_⟩
      rw [hcast]
      omega
    · rw [if_neg hfin]
      have hnN : n = N := by omega
      have hb' : base + (n - (m - 1)) = base + (N - m + 1) := by omega
      rw [hb'] at hbest'
      refine ih (it + 1) _ ⟨by dsimp only; rw [hround]; push_cast; rfl, c1, ?_, ?_, hs.sized, ?_, by omega, ?_⟩ ?_
      · dsimp only
        rw [List.length_append, fins_length, List.length_drop, h.lbuf]
        omega
      · dsimp only
        rw [List.length_append, fins_length, List.length_drop, h.ubuf]
        omega
      · rw [hnext]
        exact ⟨v', hv', hbest'⟩
      · intro _
        rw [hnext]
        refine ⟨by omega, ?_, ?_⟩
        · dsimp only
          rw [List.drop_drop]
          congr 2
          omega
        · intro k hk
          dsimp only
          rw [c3 (N - m + 1 + k) (by omega) (by simp; omega), drop_getD]
          congr 3
          omega
      · rw [hnext]
        omega

/-- The search from the prepared query on. -/
theorem search_spec {N : ℕ} {Q : UcrQuery Ex} {G : ℕ → ℝ → Int → Prop} {data : List ℝ} (hQm : Q.m = m) (hQr : Q.r = r) (hm : 1 ≤ m)
    (hG0 : G 0 (10 ^ 20) 0) (hG : ∀ p, p + m ≤ data.length → Looks r m Q (windowAt data p m) p (G p) (G (p + 1)))
    (hr : r < m) (hN : m ≤ N) (hdot : N - m + 1 ≤ 1000000) {junk : Ex} {order : List Int} {query : List Ex}
    (hp : prepare junk order query m r = .ok Q) :
    ∃ (loc : Int) (v : ℝ), calculateWith N junk order (fins data) query m r =
        .ok (loc, F.fin v, ((max data.length (m - 1) : ℕ) : Int)) ∧ G (data.length + 1 - m) v loc := by
  have key : (calculateWith N junk order (fins data) query m r).Ensures fun y => ∃ (loc : Int) (v : ℝ),
      y = (loc, (F.fin v : Ex), ((max data.length (m - 1) : ℕ) : Int)) ∧ G (data.length + 1 - m) v loc := by
    unfold calculateWith
    rw [hp]
    simp only [Res.bind_ok]
    refine Res.Ensures.bind (loop_spec (data := data) hQm hQr hm hG hr hN hdot _ 0 _ ⟨rfl, by simp, by simp, by simp,
      ⟨?_, by simp, by simp, by simp, by simp⟩, ?_, fun _ => rfl, fun h => absurd rfl h⟩ ?_) ?_
    · simp only [List.length_replicate]
      omega
    · exact ⟨10 ^ 20, inf_fin, by simpa using hG0⟩
    · simp
    · rintro y ⟨⟨v, h1, h2⟩, h4⟩
      rw [Res.pure_eq, Res.ensures_ok, h1, h4]
      exact ⟨y.s.loc, v, rfl, h2⟩
  obtain ⟨y, hy, loc, v, rfl, h⟩ := key
  exact ⟨loc, v, hy, h⟩

theorem calculate_spec {N : ℕ} {data query : List ℝ} (hm : 6 ≤ m) (hr : r < m) (hN : m ≤ N) (hdot : N - m + 1 ≤ 1000000)
    (hq : m ≤ query.length) (hv : Varies (query.take m)) (junk : Ex) {o : List ℕ} (ho : o.Perm (List.range m)) :
    ∃ (loc : ℕ) (v : ℝ), calculateWith N junk (o.map Int.ofNat) (fins data) (fins query) m r =
        .ok (loc, F.fin v, ((max data.length (m - 1) : ℕ) : Int)) ∧
      FirstBest r data (query.take m) (10 ^ 20) (data.length + 1 - m) loc v := by
  obtain ⟨Q, hp, hQ⟩ := prepare_spec (by omega) hq hv hr junk ho
  have hql : (query.take m).length = m := by simp; omega
  obtain ⟨_, v, h1, loc, rfl, h2⟩ := search_spec
    (G := fun p v loc => ∃ l : ℕ, loc = l ∧ FirstBest r data (query.take m) (10 ^ 20) p l v) hQ.hm hQ.hr (by omega)
    ⟨0, rfl, Or.inr ⟨rfl, rfl, by intro p L hp; simp at hp⟩⟩ (fun p hp => looks_nearest hql hQ hm hp) hr hN hdot hp
  exact ⟨loc, v, h1, h2⟩

end Onex
