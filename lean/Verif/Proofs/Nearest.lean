import Verif.Proofs.Dists
import Verif.Proofs.Loops
import Verif.Model.GroupSpace
import Verif.Spec.Nearest

/-!
# The scan for the nearest group
-/

namespace Onex
open DataT Spec

set_option linter.unusedSectionVars false

section any
variable {α : Type} [DataT α]

/-- The group with another cached envelope. -/
def recache (g : Group α) (x : Option (Cache α)) : Group α :=
  { g with centroid := { g.centroid with cache := x } }

/-- The same groups up to cached envelopes. -/
def SameUpTo (gs gs' : List (Group α)) : Prop :=
  gs'.length = gs.length ∧ ∀ (k : Nat) (h : k < gs.length) (h' : k < gs'.length), ∃ x,
    gs'[k] = recache gs[k] x

theorem SameUpTo.refl (gs : List (Group α)) : SameUpTo gs gs :=
  ⟨rfl, fun k _ _ => ⟨gs[k].centroid.cache, rfl⟩⟩

theorem SameUpTo.set {gs gs' : List (Group α)} (h : SameUpTo gs gs') (k : Nat) (hk : k < gs'.length)
    (x : Option (Cache α)) : SameUpTo gs (gs'.set k (recache gs'[k] x)) := by
  refine ⟨by simpa using h.1, ?_⟩
  intro j hj hj'
  simp only [List.length_set] at hj'
  by_cases e : k = j
  · subst e
    obtain ⟨y, hy⟩ := h.2 k hj hj'
    refine ⟨x, ?_⟩
    rw [List.getElem_set_self, hy]
    rfl
  · rw [List.getElem_set_ne e]
    exact h.2 j hj hj'

/-- Whatever the distance function does, the scan changes only caches and finds a group that exists. -/
theorem nearest_shape (ds : Dataset α) (d : Dist α) (gs : List (Group α)) (query : Series α)
    (dropout : α) (s : NearestState α) (h : nearest ds d gs query dropout = .ok s) :
    SameUpTo gs s.groups ∧ (∀ i, s.bestIdx = some i → 0 ≤ i ∧ i < len gs) := by
  unfold nearest at h
  refine forInt_okInv (fun _ s => SameUpTo gs s.groups ∧ (∀ i, s.bestIdx = some i → 0 ≤ i ∧ i < len gs))
    (len_nonneg gs) ?_ ?_ h
  · exact ⟨SameUpTo.refl gs, by simp⟩
  · rintro i s s' hi1 hi2 ⟨h1, h2⟩ hs
    unfold nearestStep at hs
    obtain ⟨g, hg, hs1⟩ := Res.bind_eq_ok.mp hs
    obtain ⟨⟨x, g', q'⟩, hd, hs2⟩ := Res.bind_eq_ok.mp hs1
    obtain ⟨gs', hset, hs3⟩ := Res.bind_eq_ok.mp hs2
    clear hs hs1 hs2
    rename _ = Res.ok s' => hs
    have hk : i.toNat < s.groups.length := by
      have := h1.1
      simp only [len] at hi2
      omega
    have hgk : g = s.groups[i.toNat] := by
      have := (vget_eq_ok.mp hg).2
      rw [List.getElem?_eq_getElem hk] at this
      exact (Option.some.inj this).symm
    have hg' : ∃ y, g' = recache g y := by
      unfold Group.distanceFromCentroid at hd
      obtain ⟨c, _, hd⟩ := Res.bind_eq_ok.mp hd
      obtain ⟨⟨x', c', q''⟩, _, hd⟩ := Res.bind_eq_ok.mp hd
      simp only [Res.pure_eq, Res.ok.injEq, Prod.mk.injEq] at hd
      exact ⟨c'.cache, hd.2.1.symm⟩
    obtain ⟨y, rfl⟩ := hg'
    have hgs' : SameUpTo gs gs' := by
      rw [(vset_eq_ok.mp hset).2, hgk]
      exact h1.set _ hk y
    split at hs
    · simp only [Res.pure_eq, Res.ok.injEq] at hs
      subst hs
      exact ⟨hgs', fun j hj => by cases hj; exact ⟨hi1, hi2⟩⟩
    · simp only [Res.pure_eq, Res.ok.injEq] at hs
      subst hs
      exact ⟨hgs', h2⟩

end any

variable {ρ : Rounding}

/-- The representative of `g` denotes the values `a`, and its cached envelope, if any, is right. -/
def CentOk (ds : Dataset (F ρ)) (g : Group (F ρ)) (a : List ℝ) : Prop :=
  ∃ sc, g.centroid.resolve ds = .ok sc ∧ SeriesOk sc a

def CentsOk (ds : Dataset (F ρ)) (gs : List (Group (F ρ))) (A : List (List ℝ)) : Prop :=
  gs.length = A.length ∧ ∀ (k : Nat) (h1 : k < gs.length) (h2 : k < A.length), CentOk ds gs[k] A[k]

theorem CentsOk.set {ds : Dataset (F ρ)} {gs : List (Group (F ρ))} {A : List (List ℝ)}
    (h : CentsOk ds gs A) (k : Nat) (hk : k < A.length) {g : Group (F ρ)} (hg : CentOk ds g A[k]) :
    CentsOk ds (gs.set k g) A := by
  refine ⟨by simpa using h.1, ?_⟩
  intro j h1 h2
  simp only [List.length_set] at h1
  by_cases e : k = j
  · subst e
    rw [List.getElem_set_self]
    exact hg
  · rw [List.getElem_set_ne e]
    exact h.2 j h1 h2

theorem resolve_recache {ds : Dataset (F ρ)} {g : Group (F ρ)} {a : List ℝ} {sc sc' : Series (F ρ)}
    (h : g.centroid.resolve ds = .ok sc) (ha : SeriesOk sc a) (ha' : SeriesOk sc' a) :
    CentOk ds (recache g sc'.cache) a := by
  refine ⟨{ vals := fins a, cache := sc'.cache }, ?_, ?_⟩
  · unfold Cent.resolve recache at *
    simp only
    split at h
    · rename_i vals hv
      simp only [Res.ok.injEq] at h
      subst h
      rw [show vals = fins a from ha.vals]
    · rename_i v hv
      obtain ⟨vals, h1, h2⟩ := Res.bind_eq_ok.mp h
      simp only [Res.pure_eq, Res.ok.injEq] at h2
      subst h2
      rw [h1, show vals = fins a from ha.vals]
      rfl
  · exact ⟨rfl, ha'.cache⟩

theorem distanceFromCentroid_spec {d : Dist (F ρ)} {dom W} (hd : Faithful d dom W)
    {ds : Dataset (F ρ)} {g : Group (F ρ)} {a q : List ℝ} {query : Series (F ρ)}
    (hg : CentOk ds g a) (hq : SeriesOk query q) (hdom : dom a q) (dropout : F ρ) :
    ∃ v x query', g.distanceFromCentroid ds query d dropout = .ok (v, recache g x, query') ∧
      CentOk ds (recache g x) a ∧ SeriesOk query' q ∧ (v = W a q ∨ v = F.pinf) ∧
      (dropout = F.pinf → v = W a q) ∧ (Honest d dom W → lt (W a q) dropout = true → v = W a q) ∧
      ∀ κ, NearHonest κ d dom W → v = W a q ∨ ¬ lt (scl κ (W a q)) dropout = true := by
  obtain ⟨sc, h1, h2⟩ := hg
  obtain ⟨v, sc', query', k1, k2, k3, k4, k5⟩ := hd.run a q sc query dropout hdom h2 hq
  refine ⟨v, sc'.cache, query', ?_, resolve_recache h1 h2 k2, k3, k4, k5, ?_,
    fun κ h => h.near a q sc query dropout v sc' query' hdom h2 hq k1⟩
  · unfold Group.distanceFromCentroid
    rw [h1, Res.bind_ok, k1]
    rfl
  · intro h hlt
    exact h.below a q sc query dropout v sc' query' hdom h2 hq k1 hlt

/-- One step of the scan. -/
theorem nearestStep_spec {d : Dist (F ρ)} {dom W} (hd : Faithful d dom W) {ds : Dataset (F ρ)}
    {A : List (List ℝ)} {q : List ℝ} (hdom : ∀ a ∈ A, dom a q) (s : NearestState (F ρ))
    (hg : CentsOk ds s.groups A) (hq : SeriesOk s.query q) (k : Nat) (hk : k < A.length) :
    ∃ v gs' query', nearestStep ds d k s = .ok (if lt v s.best = true then
        { groups := gs', query := query', best := v, bestIdx := some k }
      else { s with groups := gs', query := query' }) ∧
      CentsOk ds gs' A ∧ SeriesOk query' q ∧ (v = W A[k] q ∨ v = F.pinf) ∧
      (s.best = F.pinf → v = W A[k] q) ∧
      (Honest d dom W → lt (W A[k] q) s.best = true → v = W A[k] q) ∧
      ∀ κ, NearHonest κ d dom W → v = W A[k] q ∨ ¬ lt (scl κ (W A[k] q)) s.best = true := by
  have hk' : k < s.groups.length := by rw [hg.1]; exact hk
  obtain ⟨v, x, query', h1, h2, h3, h4, h5, h6⟩ := distanceFromCentroid_spec hd (hg.2 k hk' hk) hq
    (hdom _ (List.getElem_mem hk)) s.best
  refine ⟨v, s.groups.set k (recache s.groups[k] x), query', ?_, hg.set k hk h2, h3, h4, h5, h6⟩
  unfold nearestStep
  simp only [vget_nat hk', Res.bind_ok, h1, vset_nat _ hk']
  split <;> rfl

theorem lt_asymm_F {x y : F ρ} (h : lt x y = true) : ¬ lt y x = true := by
  rw [lt_iff] at *
  cases x <;> cases y <;> simp_all [F.Lt]
  exact h.le

theorem lt_trans_F {x y z : F ρ} (h : lt x y = true) (h' : lt y z = true) : lt x z = true := by
  rw [lt_iff] at *
  cases x <;> cases y <;> cases z <;> simp_all [F.Lt]
  exact h.trans h'

/-- For values that are not NaN, "not less" reverses strictly. -/
theorem lt_of_lt_of_not_lt {x y z : F ρ} (h : lt x y = true) (h' : ¬ lt z y = true) (hz : z ≠ F.nan) :
    lt x z = true := by
  rw [lt_iff] at *
  cases x <;> cases y <;> cases z <;> simp_all [F.Lt]
  exact lt_of_lt_of_le h h'

theorem not_lt_trans {x y z : F ρ} (h : ¬ lt x y = true) (h' : ¬ lt y z = true) (hy : y ≠ F.nan) :
    ¬ lt x z = true := by
  rw [lt_iff] at *
  cases x <;> cases y <;> cases z <;> simp_all [F.Lt]
  linarith

/-- The running minimum extends the specification by one value. -/
theorem FirstBelow.snoc {vals : List (F ρ)} {bound : F ρ} {r : Option Int × F ρ} (v : F ρ)
    (hn : ∀ v ∈ vals, v ≠ F.nan)
    (h : FirstBelow vals bound r) :
    FirstBelow (vals ++ [v]) bound (if lt v r.2 = true then (some (vals.length : Int), v) else r) := by
  rcases h with ⟨rfl, h⟩ | ⟨k, hk, rfl, h1, h2⟩
  · by_cases hlt : lt v bound = true
    · rw [if_pos hlt]
      refine Or.inr ⟨vals.length, by simp, by simp, by simpa using hlt, ?_⟩
      intro j hj
      simp only [List.length_append, List.length_singleton] at hj
      simp only [List.getElem_concat_length]
      by_cases hjl : j < vals.length
      · rw [List.getElem_append_left hjl]
        have := lt_of_lt_of_not_lt hlt (h _ (List.getElem_mem hjl)) (hn _ (List.getElem_mem hjl))
        exact ⟨lt_asymm_F this, fun _ => this⟩
      · have : j = vals.length := by omega
        subst this
        simp [lt_irrefl_F]
    · rw [if_neg hlt]
      refine Or.inl ⟨rfl, ?_⟩
      intro w hw
      rcases List.mem_append.mp hw with hw | hw
      · exact h w hw
      · rw [List.mem_singleton.mp hw]
        exact hlt
  · by_cases hlt : lt v vals[k] = true
    · rw [if_pos hlt]
      refine Or.inr ⟨vals.length, by simp, by simp, by simpa using lt_trans_F hlt h1, ?_⟩
      intro j hj
      simp only [List.length_append, List.length_singleton] at hj
      simp only [List.getElem_concat_length]
      by_cases hjl : j < vals.length
      · rw [List.getElem_append_left hjl]
        have := lt_of_lt_of_not_lt hlt (h2 j hjl).1 (hn _ (List.getElem_mem hjl))
        exact ⟨lt_asymm_F this, fun _ => this⟩
      · have : j = vals.length := by omega
        subst this
        simp [lt_irrefl_F]
    · rw [if_neg hlt]
      have hk' : (vals ++ [v])[k]'(by simp; omega) = vals[k] := List.getElem_append_left hk
      refine Or.inr ⟨k, by simp; omega, by rw [hk'], by rw [hk']; exact h1, ?_⟩
      intro j hj
      simp only [List.length_append, List.length_singleton] at hj
      rw [hk']
      by_cases hjl : j < vals.length
      · rw [List.getElem_append_left hjl]
        exact h2 j hjl
      · have : j = vals.length := by omega
        subst this
        rw [List.getElem_concat_length rfl]
        exact ⟨hlt, fun h => by omega⟩

theorem Faithful.ne_nan {d : Dist (F ρ)} {dom W} (hd : Faithful d dom W) {a b : List ℝ} (h : dom a b) :
    W a b ≠ F.nan := by
  rcases hd.val a b h with e | ⟨x, _, e⟩ <;> rw [e] <;> simp

/-- With an honest distance the scan finds the first group with the least distance below the dropout. -/
theorem nearest_honest {d : Dist (F ρ)} {dom W} (hd : Honest d dom W) {ds : Dataset (F ρ)}
    {A : List (List ℝ)} {q : List ℝ} (hdom : ∀ a ∈ A, dom a q) {gs : List (Group (F ρ))}
    (hg : CentsOk ds gs A) {query : Series (F ρ)} (hq : SeriesOk query q) (dropout : F ρ) :
    ∃ s, nearest ds d gs query dropout = .ok s ∧ CentsOk ds s.groups A ∧ SeriesOk s.query q ∧
      FirstBelow (A.map fun a => W a q) dropout (s.bestIdx, s.best) := by
  unfold nearest
  have hl : len gs = (A.length : Int) := by simp only [len, hg.1]
  have := forInt_ensures (lo := 0) (hi := len gs)
    (s := ({ groups := gs, query := query, best := dropout, bestIdx := none } : NearestState (F ρ)))
    (body := nearestStep ds d)
    (fun i s => CentsOk ds s.groups A ∧ SeriesOk s.query q ∧
      FirstBelow ((A.take i.toNat).map fun a => W a q) dropout (s.bestIdx, s.best))
    (len_nonneg gs) ⟨hg, hq, Or.inl ⟨rfl, by simp⟩⟩ (by
      rintro i s h0 h1 ⟨a1, a2, a3⟩
      obtain ⟨k, rfl⟩ := Int.eq_ofNat_of_zero_le h0
      have hk : k < A.length := by omega
      obtain ⟨v, gs', query', e1, e2, e3, e4, e5, e6, _⟩ :=
        nearestStep_spec hd.toFaithful hdom s a1 a2 k hk
      refine ⟨_, e1, ?_⟩
      -- the value used behaves like the distance
      have hcmp : lt v s.best = true ↔ lt (W A[k] q) s.best = true := by
        constructor
        · intro h
          rcases e4 with rfl | rfl
          · exact h
          · simp at h
        · intro h
          rw [e6 hd h]
          exact h
      have key := FirstBelow.snoc (W A[k] q) (by
        intro v hv
        simp only [List.mem_map] at hv
        obtain ⟨a, ha, rfl⟩ := hv
        exact hd.toFaithful.ne_nan (hdom a (List.mem_of_mem_take ha))) a3
      have ht : (A.take (k + 1)).map (fun a => W a q) = (A.take k).map (fun a => W a q) ++ [W A[k] q] := by
        rw [List.take_succ_eq_append_getElem hk, List.map_append]
        rfl
      have hlen : ((A.take k).map fun a => W a q).length = k := by
        simp only [List.length_map, List.length_take]
        omega
      simp only [Int.toNat_natCast] at key
      rw [show ((k : Int) + 1).toNat = k + 1 by omega, ht]
      rw [hlen] at key
      by_cases hlt : lt v s.best = true
      · rw [if_pos hlt]
        rw [if_pos (hcmp.mp hlt)] at key
        refine ⟨e2, e3, ?_⟩
        simp only
        rw [e6 hd (hcmp.mp hlt)]
        exact key
      · rw [if_neg hlt]
        rw [if_neg (fun h => hlt (hcmp.mpr h))] at key
        exact ⟨e2, e3, key⟩)
  obtain ⟨s, h1, h2, h3, h4⟩ := this
  refine ⟨s, h1, h2, h3, ?_⟩
  rw [hl, Int.toNat_natCast, List.take_length] at h4
  exact h4

/-- With a faithful distance and no dropout, the scan finds a group whose distance is the value reported; it finds one
whenever the first group is at a finite distance. -/
theorem nearest_faithful {d : Dist (F ρ)} {dom W} (hd : Faithful d dom W) {ds : Dataset (F ρ)}
    {A : List (List ℝ)} {q : List ℝ} (hdom : ∀ a ∈ A, dom a q) {gs : List (Group (F ρ))}
    (hg : CentsOk ds gs A) {query : Series (F ρ)} (hq : SeriesOk query q) (dropout : F ρ) :
    ∃ s, nearest ds d gs query dropout = .ok s ∧ CentsOk ds s.groups A ∧ SeriesOk s.query q ∧
      ((s.bestIdx = none ∧ s.best = dropout) ∨ ∃ (k : Nat) (h : k < A.length),
        s.bestIdx = some (k : Int) ∧ s.best = W A[k] q ∧ lt s.best dropout = true) ∧
      (∀ h : 0 < A.length, dropout = F.pinf → W A[0] q ≠ F.pinf → s.bestIdx ≠ none) ∧
      ∀ κ, NearHonest κ d dom W → ∀ a ∈ A, ¬ lt (scl κ (W a q)) s.best = true := by
  unfold nearest
  have hl : len gs = (A.length : Int) := by simp only [len, hg.1]
  have := forInt_ensures (lo := 0) (hi := len gs)
    (s := ({ groups := gs, query := query, best := dropout, bestIdx := none } : NearestState (F ρ)))
    (body := nearestStep ds d)
    (fun i s => CentsOk ds s.groups A ∧ SeriesOk s.query q ∧
      ((s.bestIdx = none ∧ s.best = dropout) ∨ ∃ (k : Nat) (h : k < A.length),
        s.bestIdx = some (k : Int) ∧ s.best = W A[k] q ∧ lt s.best dropout = true) ∧
      (∀ h : 0 < A.length, 0 < i → dropout = F.pinf → W A[0] q ≠ F.pinf → s.bestIdx ≠ none) ∧
      ∀ κ, NearHonest κ d dom W → ∀ a ∈ A.take i.toNat, ¬ lt (scl κ (W a q)) s.best = true)
    (len_nonneg gs) ⟨hg, hq, Or.inl ⟨rfl, rfl⟩, by intro _ h; omega, by simp⟩ (by
      rintro i s h0 h1 ⟨a1, a2, a3, a4, a5⟩
      obtain ⟨k, rfl⟩ := Int.eq_ofNat_of_zero_le h0
      have hk : k < A.length := by omega
      obtain ⟨v, gs', query', e1, e2, e3, e4, e5, _, e7⟩ := nearestStep_spec hd hdom s a1 a2 k hk
      refine ⟨_, e1, ?_⟩
      have hval := hd.val A[k] q (hdom _ (List.getElem_mem hk))
      have htake : ∀ a ∈ A.take ((k : Int) + 1).toNat, a ∈ A.take (k : Int).toNat ∨ a = A[k] := by
        intro a ha
        rw [show ((k : Int) + 1).toNat = k + 1 by omega, List.take_succ_eq_append_getElem hk,
          List.mem_append, List.mem_singleton] at ha
        exact ha
      by_cases hlt : lt v s.best = true
      · rw [if_pos hlt]
        have hv : v = W A[k] q := by
          rcases e4 with h | h
          · exact h
          · rw [h] at hlt
            simp at hlt
        refine ⟨e2, e3, Or.inr ⟨k, hk, rfl, hv, ?_⟩, by simp, ?_⟩
        swap
        · intro κ hn a ha
          rcases htake a ha with h | rfl
          · exact fun h' => a5 κ hn a h (lt_trans_F h' hlt)
          · rw [hv]
            exact scl_not_lt hn.one hval (by simp [lt_irrefl_F])
        rcases a3 with ⟨_, h⟩ | ⟨_, _, _, _, h⟩
        · rw [← h]; exact hlt
        · exact lt_trans_F hlt h
      · rw [if_neg hlt]
        refine ⟨e2, e3, a3, ?_, ?_⟩
        swap
        · intro κ hn a ha
          rcases htake a ha with h | rfl
          · exact a5 κ hn a h
          · rcases e7 κ hn with h | h
            · rw [h] at hlt
              exact scl_not_lt hn.one hval hlt
            · exact h
        intro hA _ hdr hW
        by_cases hk0 : k = 0
        · subst hk0
          rcases a3 with ⟨h, h'⟩ | ⟨_, _, h, _⟩
          · exfalso
            apply hlt
            rw [h', hdr, e5 (by rw [h', hdr])]
            rcases hd.val A[0] q (hdom _ (List.getElem_mem hk)) with e | ⟨x, _, e⟩
            · exact absurd e hW
            · rw [e]
              simp
          · simp [h]
        · exact a4 hA (by omega) hdr hW)
  obtain ⟨s, h1, h2, h3, h4, h5, h6⟩ := this
  refine ⟨s, h1, h2, h3, h4, fun h => h5 h (by omega), ?_⟩
  rw [hl, Int.toNat_natCast, List.take_length] at h6
  exact h6

end Onex
