import Verif.Proofs.Grouping

/-!
# Grouping of real data: progress, closeness and separation
-/

namespace Onex
open DataT Spec

variable {ρ : Rounding}

/-- State of the groups of one length while real data `R` is being grouped: `M` are the members, `A` the values of
the representatives. -/
structure RealInv (ds : Dataset (F ρ)) (l : Int) (R : List (List ℝ)) (d : Dist (F ρ))
    (dom : List ℝ → List ℝ → Prop) (W : List ℝ → List ℝ → F ρ) (th : F ρ) (ls : LocalSpace (F ρ))
    (M : List (List Coord)) (A : List (List ℝ)) : Prop where
  space : SpaceInv ds l ls M
  rep : RepInv ds l ls.groups M
  cents : CentsOk ds ls.groups A
  repVals : ∀ (k : Nat) (hM : k < M.length) (hA : k < A.length), ∃ r ∈ M[k], A[k] = subVals R l r
  near : (∀ a : List ℝ, a.length = l.toNat → ¬ lt (div th (ofInt 2)) (W a a) = true) →
    ∀ (k : Nat) (hM : k < M.length) (hA : k < A.length), ∀ c ∈ M[k],
      ¬ lt (div th (ofInt 2)) (W A[k] (subVals R l c)) = true
  sep : Honest d dom W → ∀ (j k : Nat) (hj : j < A.length) (hk : k < A.length), j < k →
    lt (div th (ofInt 2)) (W A[j] A[k]) = true

theorem RealInv.lenA {ds : Dataset (F ρ)} {l : Int} {R : List (List ℝ)} {d dom W} {th : F ρ}
    {ls : LocalSpace (F ρ)} {M A} (h : RealInv ds l R d dom W th ls M A) : A.length = M.length := by
  rw [← h.cents.1, h.space.card]

theorem centOk_view {ds : Dataset (F ρ)} {L : Nat} {R : List (List ℝ)} (h : HoldsReal ds L R) {l : Int}
    (hl : 1 ≤ l) {c : Coord} (hc : IsSub ds.itemCount ds.itemLength l c) {g : Group (F ρ)}
    (hg : g.centroid = { src := .view (subView ds l c), cache := none }) :
    CentOk ds g (subVals R l c) := by
  refine ⟨Series.mk' (fins (subVals R l c)), ?_, seriesOk_mk _⟩
  unfold Cent.resolve
  rw [hg]
  simp only
  rw [(resolve_sub h hl hc).1]
  rfl

theorem CentOk.of_centroid {ds : Dataset (F ρ)} {g g' : Group (F ρ)} {a : List ℝ} (h : CentOk ds g a)
    (e : g'.centroid = g.centroid) : CentOk ds g' a := by
  unfold CentOk at *
  rw [e]
  exact h

/-- Placing one sub-series of real data always succeeds and keeps the invariant. -/
theorem placeOne_real {ds : Dataset (F ρ)} {L : Nat} {R : List (List ℝ)} (hds : HoldsReal ds L R) {l : Int}
    (hl : 1 ≤ l) {d : Dist (F ρ)} {dom W} (hd : Faithful d dom W)
    (hdom : ∀ a b : List ℝ, a.length = l.toNat → b.length = l.toNat → dom a b ∧ W a b ≠ F.pinf)
    {th : F ρ} {ls : LocalSpace (F ρ)} {M A} (hi : RealInv ds l R d dom W th ls M A) {c : Coord}
    (hc : IsSub ds.itemCount ds.itemLength l c) (hnew : c ∉ M.flatten) :
    (placeOne ds d th c.1 c.2 ls).Ensures fun ls' => ∃ M' A', RealInv ds l R d dom W th ls' M' A' ∧
      M'.flatten.Perm (c :: M.flatten) := by
  obtain ⟨hres, hlen⟩ := resolve_sub hds hl hc
  have hA : ∀ a ∈ A, a.length = l.toNat := by
    intro a ha
    obtain ⟨k, hk, rfl⟩ := List.getElem_of_mem ha
    have hkM : k < M.length := by rw [← hi.lenA]; exact hk
    obtain ⟨r, h1, h2⟩ := hi.repVals k hkM hk
    rw [h2]
    refine (resolve_sub hds hl ?_).2
    exact (hi.space.inv k (by rw [hi.space.card]; exact hkM) hkM).subs r h1
  have hdomA : ∀ a ∈ A, dom a (subVals R l c) := fun a ha => (hdom a _ (hA a ha) hlen).1
  obtain ⟨s, hs, hs1, hs2, hs3, hs4, _⟩ := nearest_faithful hd hdomA hi.cents
    (seriesOk_mk (ρ := ρ) (subVals R l c)) F.pinf
  have hsame := (nearest_shape _ _ _ _ _ _ hs).1
  by_cases hb : (gt s.best (div th (ofInt 2)) || len s.groups == 0) = true
  · obtain ⟨ls', g', e1, e2, e3, e4, e5⟩ := placeOne_new hl hi.space hi.rep hc hnew hres hs hb
    refine ⟨ls', e1, M ++ [[c]], A ++ [subVals R l c], ⟨e2, e3, ?_, ?_, ?_, ?_⟩, ?_⟩
    · rw [e4]
      refine ⟨by simp [hs1.1], ?_⟩
      intro k h1 h2
      simp only [List.length_append, List.length_singleton] at h1 h2
      by_cases hk : k < A.length
      · have hk' : k < s.groups.length := by rw [hs1.1]; exact hk
        simp only [List.getElem_append_left hk, List.getElem_append_left hk']
        exact hs1.2 k hk' hk
      · have : k = A.length := by omega
        subst this
        have ea : (A ++ [subVals R l c])[A.length]'(by simp) = subVals R l c := by simp
        have eg : (s.groups ++ [g'])[A.length]'(by simp [hs1.1]) = g' := by
          rw [List.getElem_append_right (by rw [hs1.1])]
          simp [hs1.1]
        rw [ea, eg]
        exact centOk_view hds hl hc e5
    · intro k h1 h2
      simp only [List.length_append, List.length_singleton] at h1 h2
      by_cases hk : k < A.length
      · have hkM : k < M.length := by rw [← hi.lenA]; exact hk
        simp only [List.getElem_append_left hk, List.getElem_append_left hkM]
        exact hi.repVals k hkM hk
      · have : k = A.length := by omega
        subst this
        have ea : (A ++ [subVals R l c])[A.length]'(by simp) = subVals R l c := by simp
        have em : (M ++ [[c]])[A.length]'(by simp [hi.lenA]) = [c] := by
          rw [List.getElem_append_right (by rw [hi.lenA])]
          simp [hi.lenA]
        rw [ea, em]
        exact ⟨c, by simp, rfl⟩
    · intro hself k h1 h2
      simp only [List.length_append, List.length_singleton] at h1 h2
      by_cases hk : k < A.length
      · have hkM : k < M.length := by rw [← hi.lenA]; exact hk
        simp only [List.getElem_append_left hk, List.getElem_append_left hkM]
        exact hi.near hself k hkM hk
      · have : k = A.length := by omega
        subst this
        have ea : (A ++ [subVals R l c])[A.length]'(by simp) = subVals R l c := by simp
        have em : (M ++ [[c]])[A.length]'(by simp [hi.lenA]) = [c] := by
          rw [List.getElem_append_right (by rw [hi.lenA])]
          simp [hi.lenA]
        rw [ea, em]
        intro c' hc'
        rw [List.mem_singleton] at hc'
        subst hc'
        exact hself _ hlen
    · intro hh j k hj hk hjk
      simp only [List.length_append, List.length_singleton] at hj hk
      by_cases hkA : k < A.length
      · have hjA : j < A.length := by omega
        simp only [List.getElem_append_left hkA, List.getElem_append_left hjA]
        exact hi.sep hh j k hjA hkA hjk
      · have hjA : j < A.length := by omega
        have : k = A.length := by omega
        subst this
        have ea : (A ++ [subVals R l c])[A.length]'(by simp) = subVals R l c := by simp
        rw [ea]
        simp only [List.getElem_append_left hjA]
        obtain ⟨s', k1, _, _, k4⟩ := nearest_honest hh hdomA hi.cents
          (seriesOk_mk (ρ := ρ) (subVals R l c)) F.pinf
        rw [hs, Res.ok.injEq] at k1
        subst k1
        have hgt : lt (div th (ofInt 2)) s.best = true := by
          have hne : ¬ (len s.groups == 0) = true := by
            simp only [beq_iff_eq, len, hs1.1]
            omega
          simp only [Bool.or_eq_true] at hb
          exact hb.resolve_right hne
        have hle : ¬ lt (W A[j] (subVals R l c)) s.best = true := by
          rcases k4 with ⟨h, h'⟩ | ⟨m, hm, h1, _, h2⟩
          · have hbest : s.best = F.pinf := congrArg Prod.snd h
            rw [hbest]
            exact h' _ (List.mem_map_of_mem (List.getElem_mem hjA))
          · have hbest : s.best = _ := congrArg Prod.snd h1
            rw [hbest]
            have := (h2 j (by simpa using hjA)).1
            simpa using this
        exact lt_of_lt_of_not_lt hgt hle (hd.ne_nan (hdomA _ (List.getElem_mem hjA)))
    · rw [List.flatten_append]
      simp only [List.flatten_cons, List.flatten_nil, List.append_nil]
      exact List.perm_append_comm
  · have hne : s.groups.length ≠ 0 := by
      intro h
      apply hb
      simp [len, h]
    have hA0 : 0 < A.length := by rw [← hs1.1]; omega
    have hidx := hs4 hA0 rfl (hdom _ _ (hA _ (List.getElem_mem hA0)) hlen).2
    have hs3' : ∃ (k : Nat) (h : k < A.length), s.bestIdx = some (k : Int) ∧
        s.best = W A[k] (subVals R l c) ∧ lt s.best F.pinf = true := by
      rcases hs3 with h | h
      · exact absurd h.1 hidx
      · exact h
    obtain ⟨k, hk, b1, b2, _⟩ := hs3'
    have hkM : k < M.length := by rw [← hi.lenA]; exact hk
    have hks : k < s.groups.length := by rw [hs1.1]; exact hk
    obtain ⟨ls', g', e1, e2, e3, e4, e5⟩ := placeOne_old hl hi.space hi.rep hc hnew hres hs hb hkM b1
    refine ⟨ls', e1, M.set k (c :: M[k]), A, ⟨e2, e3, ?_, ?_, ?_, hi.sep⟩, flatten_set_perm M c k hkM⟩
    · rw [e4]
      exact hs1.set k hk ((hs1.2 k hks hk).of_centroid (e5 hks))
    · intro j h1 h2
      simp only [List.length_set] at h1
      obtain ⟨r, hr1, hr2⟩ := hi.repVals j h1 h2
      by_cases e : k = j
      · subst e
        simp only [List.getElem_set_self]
        exact ⟨r, by simp [hr1], hr2⟩
      · simp only [List.getElem_set_ne e]
        exact ⟨r, hr1, hr2⟩
    · intro hself j h1 h2
      simp only [List.length_set] at h1
      by_cases e : k = j
      · subst e
        simp only [List.getElem_set_self]
        intro c' hc'
        rcases List.mem_cons.mp hc' with rfl | hc'
        · rw [← b2]
          intro hcon
          apply hb
          simp only [Bool.or_eq_true]
          exact Or.inl hcon
        · exact hi.near hself k hkM hk c' hc'
      · simp only [List.getElem_set_ne e]
        exact hi.near hself j h1 h2

/-- Grouping real data at one length: it ends normally, and all sub-series are members. -/
theorem generate_real {ds : Dataset (F ρ)} {L : Nat} {R : List (List ℝ)} (hds : HoldsReal ds L R) {l : Int}
    (hl : 1 ≤ l) {d : Dist (F ρ)} {dom W} (hd : Faithful d dom W)
    (hdom : ∀ a b : List ℝ, a.length = l.toNat → b.length = l.toNat → dom a b ∧ W a b ≠ F.pinf)
    (th : F ρ) (doLog : Bool) {ls : LocalSpace (F ρ)} (hls : LocalSpace.new ds l = .ok ls)
    (hlog : ∀ _ : 0 < ds.itemCount ∧ 0 < ls.subCount, logProgress doLog (ls.subCount * ds.itemCount) = .ok ()) :
    (ls.generateGroups ds d th doLog).Ensures fun ls' => ∃ M A, RealInv ds l R d dom W th ls' M A ∧
      ∀ c, c ∈ M.flatten ↔ IsSub ds.itemCount ds.itemLength l c := by
  obtain ⟨h1, h2, h3⟩ := spaceInv_new hls
  refine generateGroups_ensures (by rw [HoldsReal.count hds]; omega) h1.subCount hlog
    (fun ls S => ∃ M A, RealInv ds l R d dom W th ls M A ∧ ∀ c, c ∈ M.flatten ↔ S c)
    ⟨[], [], ⟨h1, h2, ⟨by rw [h3]; rfl, by intro k h; rw [h3] at h; simp at h⟩, by simp, by simp, by simp⟩, by simp⟩ ?_
  rintro ls S c ⟨M, A, hi, hS⟩ hc hnS
  refine (placeOne_real hds hl hd hdom hi hc (fun h => hnS ((hS c).mp h))).mono ?_
  rintro ls' ⟨M', A', hi', hp⟩
  refine ⟨M', A', hi', ?_⟩
  intro c'
  rw [hp.mem_iff, List.mem_cons, hS]
  exact or_comm

end Onex
