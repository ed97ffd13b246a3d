import Verif.Proofs.BestMatch

/-!
# Grouping: the member lists after placing sub-series
-/

namespace Onex
open DataT Spec

set_option linter.unusedSectionVars false

section any
variable {α : Type} [DataT α]

/-- The groups of one length and their lists of members `M` (newest first). -/
structure SpaceInv (ds : Dataset α) (l : Int) (ls : LocalSpace α) (M : List (List Coord)) : Prop where
  length : ls.length = l
  subCount : ls.subCount = ds.itemLength - l + 1
  mapLen : len ls.memberMap = ds.itemCount * (ds.itemLength - l + 1)
  card : ls.groups.length = M.length
  inv : ∀ (k : Nat) (h : k < ls.groups.length) (h' : k < M.length),
    GroupInv ds l ls.memberMap ls.groups[k] M[k]
  nodup : M.flatten.Nodup

/-- Each representative is the first member of its group, as a view of the dataset. -/
def RepInv (ds : Dataset α) (l : Int) (gs : List (Group α)) (M : List (List Coord)) : Prop :=
  ∀ (k : Nat) (h : k < gs.length) (h' : k < M.length), ∃ r, M[k].getLast? = some r ∧
    gs[k].centroid.src = .view (subView ds l r)

theorem GroupInv.recache {ds : Dataset α} {l : Int} {mm : List Membership} {g : Group α} {ms : List Coord}
    (h : GroupInv ds l mm g ms) (x : Option (Cache α)) : GroupInv ds l mm (recache g x) ms :=
  ⟨h.memberLength, h.subCount, h.count, h.chain, h.subs, h.nodup⟩

theorem GroupInv.of_centroid {ds : Dataset α} {l : Int} {mm : List Membership} {g : Group α} {ms : List Coord}
    (h : GroupInv ds l mm g ms) (x : Cent α) : GroupInv ds l mm { g with centroid := x } ms :=
  ⟨h.memberLength, h.subCount, h.count, h.chain, h.subs, h.nodup⟩

theorem flatten_set_perm (M : List (List Coord)) (c : Coord) : ∀ (k : Nat) (hk : k < M.length),
    (M.set k (c :: M[k])).flatten.Perm (c :: M.flatten) := by
  induction M with
  | nil => intro k hk; simp at hk
  | cons m M ih =>
    intro k hk
    cases k with
    | zero => simp
    | succ k =>
      have := ih k (by simpa using hk)
      simp only [List.set_cons_succ, List.getElem_cons_succ, List.flatten_cons]
      refine (List.Perm.append_left m this).trans ?_
      exact List.perm_middle

theorem mem_flatten_getElem {M : List (List Coord)} {c : Coord} {k : Nat} (hk : k < M.length)
    (h : c ∈ M[k]) : c ∈ M.flatten :=
  List.mem_flatten.mpr ⟨_, List.getElem_mem hk, h⟩

/-- The whole of `placeOne`, given the outcome of the scan: a new group. -/
theorem placeOne_new {ds : Dataset α} {l : Int} (hl : 1 ≤ l) {d : Dist α} {th : α} {ls : LocalSpace α}
    {M : List (List Coord)} (hi : SpaceInv ds l ls M) (hrep : RepInv ds l ls.groups M) {c : Coord}
    (hc : IsSub ds.itemCount ds.itemLength l c) (hnew : c ∉ M.flatten) {vals : List α}
    (hvals : ds.resolve (subView ds l c) = .ok vals) {s : NearestState α}
    (hs : nearest ds d ls.groups (Series.mk' vals) inf = .ok s)
    (hb : (gt s.best (div th (ofInt 2)) || len s.groups == 0) = true) :
    ∃ ls' g', placeOne ds d th c.1 c.2 ls = .ok ls' ∧ SpaceInv ds l ls' (M ++ [[c]]) ∧
      RepInv ds l ls'.groups (M ++ [[c]]) ∧ ls'.groups = s.groups ++ [g'] ∧
      g'.centroid = { src := .view (subView ds l c), cache := none } := by
  obtain ⟨hsame, _⟩ := nearest_shape _ _ _ _ _ _ hs
  let g0 : Group α := { (Group.new (len s.groups) l (ds.itemLength - l + 1) : Group α) with
    centroid := { src := .view (subView ds l c), cache := none } }
  have hg0 : GroupInv ds l ls.memberMap g0 [] := (groupInv_new ds l _ ls.memberMap).of_centroid _
  obtain ⟨g', mm', a1, a2, a3, a4, a5, a6⟩ := addMember_spec hi.mapLen hg0 hc (by simp)
  have hgl : s.groups.length = M.length := by rw [hsame.1, hi.card]
  have hk : s.groups.length < (s.groups ++ [g0]).length := by simp
  have hset : (s.groups ++ [g0]).set s.groups.length g' = s.groups ++ [g'] := by
    rw [List.set_append_right _ _ (le_refl _)]
    simp
  refine ⟨{ ls with groups := s.groups ++ [g'], memberMap := mm' }, g', ?_, ?_, ?_, rfl, by rw [a4]⟩
  · unfold placeOne
    rw [hi.length, getTimeSeries_sub hl hc, Res.bind_ok, hvals, Res.bind_ok, hs, Res.bind_ok]
    simp only
    rw [if_pos hb, hi.subCount]
    have hcen : (Group.new (len s.groups) l (ds.itemLength - l + 1) : Group α).setCentroid ds c.1 c.2 = .ok g0 := by
      unfold Group.setCentroid
      have : (Group.new (len s.groups) l (ds.itemLength - l + 1) : Group α).memberLength = l := rfl
      rw [this, getTimeSeries_sub hl hc]
      rfl
    rw [hcen]
    simp only [Res.bind_ok, Res.pure_eq]
    have hv : vget (s.groups ++ [g0]) (len s.groups) = .ok g0 := by
      have := vget_nat hk
      simp only [List.getElem_concat_length] at this
      exact this
    rw [hv, Res.bind_ok, a1, Res.bind_ok]
    simp only
    have hst : vset (s.groups ++ [g0]) (len s.groups) g' = .ok (s.groups ++ [g']) := by
      have := vset_nat g' hk
      rw [hset] at this
      exact this
    rw [hst]
    rfl
  · refine ⟨hi.length, hi.subCount, by simp only [a3]; exact hi.mapLen, by simp [hgl], ?_, ?_⟩
    · intro k h h'
      simp only [List.length_append, List.length_singleton] at h h'
      by_cases hkl : k < M.length
      · have hks : k < s.groups.length := by omega
        simp only [List.getElem_append_left hkl, List.getElem_append_left hks]
        obtain ⟨x, hx⟩ := hsame.2 k (by rw [hi.card]; exact hkl) hks
        rw [hx]
        exact a6 _ _ ((hi.inv k (by rw [hi.card]; exact hkl) hkl).recache x)
          (fun hm => hnew (mem_flatten_getElem hkl hm))
      · have : k = M.length := by omega
        subst this
        simp only [List.getElem_concat_length]
        have e : (s.groups ++ [g'])[M.length]'(by simp [hgl]) = g' := by
          rw [List.getElem_append_right (by omega)]
          simp [hgl]
        rw [e]
        exact a2
    · rw [List.flatten_append]
      simp only [List.flatten_cons, List.flatten_nil, List.append_nil]
      rw [List.nodup_append]
      refine ⟨hi.nodup, by simp, ?_⟩
      intro x hx y hy
      rw [List.mem_singleton] at hy
      subst hy
      exact fun e => hnew (e ▸ hx)
  · intro k h h'
    simp only [List.length_append, List.length_singleton] at h h'
    by_cases hkl : k < M.length
    · have hks : k < s.groups.length := by omega
      simp only [List.getElem_append_left hkl, List.getElem_append_left hks]
      obtain ⟨x, hx⟩ := hsame.2 k (by rw [hi.card]; exact hkl) hks
      obtain ⟨r, h1, h2⟩ := hrep k (by rw [hi.card]; exact hkl) hkl
      exact ⟨r, h1, by rw [hx]; exact h2⟩
    · have : k = M.length := by omega
      subst this
      simp only [List.getElem_concat_length]
      have e : (s.groups ++ [g'])[M.length]'(by simp [hgl]) = g' := by
        rw [List.getElem_append_right (by omega)]
        simp [hgl]
      rw [e, a4]
      exact ⟨c, rfl, rfl⟩

/-- The whole of `placeOne`, given the outcome of the scan: an existing group. -/
theorem placeOne_old {ds : Dataset α} {l : Int} (hl : 1 ≤ l) {d : Dist α} {th : α} {ls : LocalSpace α}
    {M : List (List Coord)} (hi : SpaceInv ds l ls M) (hrep : RepInv ds l ls.groups M) {c : Coord}
    (hc : IsSub ds.itemCount ds.itemLength l c) (hnew : c ∉ M.flatten) {vals : List α}
    (hvals : ds.resolve (subView ds l c) = .ok vals) {s : NearestState α}
    (hs : nearest ds d ls.groups (Series.mk' vals) inf = .ok s)
    (hb : ¬ (gt s.best (div th (ofInt 2)) || len s.groups == 0) = true) {k : Nat}
    (hk : k < M.length) (hidx : s.bestIdx = some (k : Int)) :
    ∃ ls' g' , placeOne ds d th c.1 c.2 ls = .ok ls' ∧ SpaceInv ds l ls' (M.set k (c :: M[k])) ∧
      RepInv ds l ls'.groups (M.set k (c :: M[k])) ∧ ls'.groups = s.groups.set k g' ∧
      (∀ h : k < s.groups.length, g'.centroid = s.groups[k].centroid) := by
  obtain ⟨hsame, _⟩ := nearest_shape _ _ _ _ _ _ hs
  have hgl : s.groups.length = M.length := by rw [hsame.1, hi.card]
  have hks : k < s.groups.length := by omega
  have hkls : k < ls.groups.length := by rw [hi.card]; exact hk
  have hinv : ∀ (j : Nat) (h : j < s.groups.length) (h' : j < M.length),
      GroupInv ds l ls.memberMap s.groups[j] M[j] := by
    intro j h h'
    obtain ⟨x, hx⟩ := hsame.2 j (by rw [hi.card]; exact h') h
    rw [hx]
    exact (hi.inv j (by rw [hi.card]; exact h') h').recache x
  obtain ⟨g', mm', a1, a2, a3, a4, a5, a6⟩ := addMember_spec hi.mapLen (hinv k hks hk) hc
    (fun h => hnew (mem_flatten_getElem hk h))
  refine ⟨{ ls with groups := s.groups.set k g', memberMap := mm' }, g', ?_, ?_, ?_, rfl, fun _ => a4⟩
  · unfold placeOne
    rw [hi.length, getTimeSeries_sub hl hc, Res.bind_ok, hvals, Res.bind_ok, hs, Res.bind_ok]
    simp only
    rw [if_neg hb]
    simp only [Res.pure_eq, Res.bind_ok, hidx, vget_nat hks, a1, vset_nat _ hks]
  · refine ⟨hi.length, hi.subCount, by simp only [a3]; exact hi.mapLen, by simp [hgl], ?_, ?_⟩
    · intro j h h'
      simp only [List.length_set] at h h'
      by_cases e : k = j
      · subst e
        simp only [List.getElem_set_self]
        exact a2
      · simp only [List.getElem_set_ne e]
        exact a6 _ _ (hinv j h h') (fun hm => hnew (mem_flatten_getElem h' hm))
    · rw [(flatten_set_perm M c k hk).nodup_iff]
      exact List.nodup_cons.mpr ⟨hnew, hi.nodup⟩
  · intro j h h'
    simp only [List.length_set] at h h'
    by_cases e : k = j
    · subst e
      simp only [List.getElem_set_self]
      obtain ⟨r, h1, h2⟩ := hrep k hkls hk
      obtain ⟨x, hx⟩ := hsame.2 k hkls hks
      refine ⟨r, ?_, ?_⟩
      · cases hm : M[k] with
        | nil => rw [hm] at h1; simp at h1
        | cons a m =>
          rw [hm] at h1
          rw [List.getLast?_cons_cons]
          exact h1
      · rw [a4, hx]
        exact h2
    · simp only [List.getElem_set_ne e]
      obtain ⟨r, h1, h2⟩ := hrep j (by rw [hi.card]; exact h') h'
      obtain ⟨x, hx⟩ := hsame.2 j (by rw [hi.card]; exact h') h
      exact ⟨r, h1, by rw [hx]; exact h2⟩

/-- Whatever the distance does: if placing succeeds, the members are as they should be. -/
theorem placeOne_inv {ds : Dataset α} {l : Int} (hl : 1 ≤ l) {d : Dist α} {th : α} {ls ls' : LocalSpace α}
    {M : List (List Coord)} (hi : SpaceInv ds l ls M) (hrep : RepInv ds l ls.groups M) {c : Coord}
    (hc : IsSub ds.itemCount ds.itemLength l c) (hnew : c ∉ M.flatten)
    (hok : placeOne ds d th c.1 c.2 ls = .ok ls') :
    ∃ M', SpaceInv ds l ls' M' ∧ RepInv ds l ls'.groups M' ∧ M'.flatten.Perm (c :: M.flatten) := by
  have hok' := hok
  unfold placeOne at hok'
  obtain ⟨v, hv, h1⟩ := Res.bind_eq_ok.mp hok'
  obtain ⟨vals, hvals, h2⟩ := Res.bind_eq_ok.mp h1
  obtain ⟨s, hs, h3⟩ := Res.bind_eq_ok.mp h2
  rw [hi.length, getTimeSeries_sub hl hc] at hv
  cases hv
  obtain ⟨hsame, hidx⟩ := nearest_shape _ _ _ _ _ _ hs
  by_cases hb : (gt s.best (div th (ofInt 2)) || len s.groups == 0) = true
  · obtain ⟨ls'', g', e1, e2, e3, _⟩ := placeOne_new hl hi hrep hc hnew hvals hs hb
    rw [hok] at e1
    cases e1
    refine ⟨_, e2, e3, ?_⟩
    rw [List.flatten_append]
    simp only [List.flatten_cons, List.flatten_nil, List.append_nil]
    exact List.perm_append_comm
  · simp only at h3
    rw [if_neg hb] at h3
    simp only [Res.pure_eq, Res.bind_ok] at h3
    cases hbi : s.bestIdx with
    | none =>
      rw [hbi] at h3
      cases h3
    | some i =>
      obtain ⟨b1, b2⟩ := hidx i hbi
      obtain ⟨k, rfl⟩ := Int.eq_ofNat_of_zero_le b1
      have hk : k < M.length := by
        have := hi.card
        simp only [len] at b2
        omega
      obtain ⟨ls'', g', e1, e2, e3, _⟩ := placeOne_old hl hi hrep hc hnew hvals hs hb hk hbi
      rw [hok] at e1
      cases e1
      exact ⟨_, e2, e3, flatten_set_perm M c k hk⟩

/-- Total-correctness rule for the double loop over all sub-series. -/
theorem generateGroups_ensures {ds : Dataset α} {l : Int} (hcnt : 0 ≤ ds.itemCount)
    {d : Dist α} {th : α} {doLog : Bool} {ls : LocalSpace α} (hsub : ls.subCount = ds.itemLength - l + 1)
    (hlog : ∀ _ : 0 < ds.itemCount ∧ 0 < ls.subCount, logProgress doLog (ls.subCount * ds.itemCount) = .ok ())
    (I : LocalSpace α → (Coord → Prop) → Prop) (h0 : I ls (fun _ => False))
    (step : ∀ ls S c, I ls S → IsSub ds.itemCount ds.itemLength l c → ¬ S c →
      (placeOne ds d th c.1 c.2 ls).Ensures (fun ls' => I ls' (fun x => S x ∨ x = c))) :
    (ls.generateGroups ds d th doLog).Ensures
      (fun ls' => I ls' (IsSub ds.itemCount ds.itemLength l)) := by
  unfold LocalSpace.generateGroups
  simp only
  have hempty : ls.subCount ≤ 0 → (fun _ : Coord => False) = IsSub ds.itemCount ds.itemLength l := by
    intro h
    funext c
    simp only [IsSub, eq_iff_iff, false_iff]
    omega
  by_cases hneg : ls.subCount ≤ 0
  · rw [forInt_of_le hneg, ← hempty hneg]
    exact ⟨ls, rfl, h0⟩
  have := forInt_ensures (lo := 0) (hi := ls.subCount) (s := ls)
    (body := fun start ls' => forInt 0 ds.itemCount ls' fun idx ls' => do
      logProgress doLog (ls.subCount * ds.itemCount)
      placeOne ds d th idx start ls')
    (fun start ls' => I ls' (fun c => IsSub ds.itemCount ds.itemLength l c ∧ c.2 < start))
    (by omega) (by
      refine cast ?_ h0
      congr 1
      funext c
      simp only [IsSub, eq_iff_iff, false_iff]
      omega) (by
      intro start s hst1 hst2 hI
      have := forInt_ensures (lo := 0) (hi := ds.itemCount) (s := s)
        (body := fun idx ls' => do
          logProgress doLog (ls.subCount * ds.itemCount)
          placeOne ds d th idx start ls')
        (fun idx ls' => I ls' (fun c => IsSub ds.itemCount ds.itemLength l c ∧
          (c.2 < start ∨ (c.2 = start ∧ c.1 < idx))))
        hcnt (by
          refine cast ?_ hI
          congr 1
          funext c
          simp only [IsSub, eq_iff_iff]
          constructor
          · rintro ⟨h1, h2⟩
            exact ⟨h1, Or.inl h2⟩
          · rintro ⟨h1, h2⟩
            exact ⟨h1, by omega⟩) (by
          intro idx s hi1 hi2 hI
          rw [hlog ⟨by omega, by omega⟩, Res.bind_ok]
          have hc : IsSub ds.itemCount ds.itemLength l (idx, start) :=
            ⟨⟨hi1, hi2⟩, hst1, by simp only; omega⟩
          refine (step s _ (idx, start) hI hc ?_).mono ?_
          · rintro ⟨_, h⟩
            simp only at h
            omega
          · intro s' hI'
            refine cast ?_ hI'
            congr 1
            funext c
            simp only [eq_iff_iff]
            constructor
            · rintro (⟨h1, h2⟩ | rfl)
              · exact ⟨h1, by omega⟩
              · exact ⟨hc, Or.inr ⟨rfl, Int.lt_succ idx⟩⟩
            · rintro ⟨h1, h2⟩
              by_cases e : c = (idx, start)
              · exact Or.inr e
              · refine Or.inl ⟨h1, ?_⟩
                have : ¬ (c.1 = idx ∧ c.2 = start) := fun h => e (Prod.ext h.1 h.2)
                omega)
      refine this.mono ?_
      intro s' hI'
      refine cast ?_ hI'
      congr 1
      funext c
      simp only [IsSub, eq_iff_iff]
      constructor
      · rintro ⟨h1, h2⟩
        exact ⟨h1, by omega⟩
      · rintro ⟨h1, h2⟩
        exact ⟨h1, by omega⟩)
  refine this.mono ?_
  intro s' hI'
  refine cast ?_ hI'
  congr 1
  funext c
  simp only [IsSub, eq_iff_iff]
  constructor
  · rintro ⟨h1, h2⟩
    exact h1
  · intro h1
    exact ⟨h1, by omega⟩

/-- The same rule for runs that are known to have ended normally. -/
theorem generateGroups_okInv {ds : Dataset α} {l : Int} (hcnt : 0 ≤ ds.itemCount)
    {d : Dist α} {th : α} {doLog : Bool} {ls ls' : LocalSpace α} (hsub : ls.subCount = ds.itemLength - l + 1)
    (I : LocalSpace α → (Coord → Prop) → Prop) (h0 : I ls (fun _ => False))
    (step : ∀ ls ls' S c, I ls S → IsSub ds.itemCount ds.itemLength l c → ¬ S c →
      placeOne ds d th c.1 c.2 ls = .ok ls' → I ls' (fun x => S x ∨ x = c))
    (hok : ls.generateGroups ds d th doLog = .ok ls') : I ls' (IsSub ds.itemCount ds.itemLength l) := by
  unfold LocalSpace.generateGroups at hok
  simp only at hok
  by_cases hneg : ls.subCount ≤ 0
  · rw [forInt_of_le hneg, Res.ok.injEq] at hok
    subst hok
    refine cast ?_ h0
    congr 1
    funext c
    simp only [IsSub, eq_iff_iff, false_iff]
    omega
  have := forInt_okInv
    (fun start ls' => I ls' (fun c => IsSub ds.itemCount ds.itemLength l c ∧ c.2 < start))
    (by omega) (by
      refine cast ?_ h0
      congr 1
      funext c
      simp only [IsSub, eq_iff_iff, false_iff]
      omega) (by
      intro start s s' hst1 hst2 hI hbody
      have := forInt_okInv
        (fun idx ls' => I ls' (fun c => IsSub ds.itemCount ds.itemLength l c ∧
          (c.2 < start ∨ (c.2 = start ∧ c.1 < idx))))
        hcnt (by
          refine cast ?_ hI
          congr 1
          funext c
          simp only [IsSub, eq_iff_iff]
          constructor
          · rintro ⟨h1, h2⟩
            exact ⟨h1, Or.inl h2⟩
          · rintro ⟨h1, h2⟩
            exact ⟨h1, by omega⟩) (by
          intro idx s s' hi1 hi2 hI hb
          obtain ⟨_, _, hb'⟩ := Res.bind_eq_ok.mp hb
          have hc : IsSub ds.itemCount ds.itemLength l (idx, start) :=
            ⟨⟨hi1, hi2⟩, hst1, by simp only; omega⟩
          have hI' := step s s' _ (idx, start) hI hc (by
            rintro ⟨_, h⟩
            simp only at h
            omega) hb'
          refine cast ?_ hI'
          congr 1
          funext c
          simp only [eq_iff_iff]
          constructor
          · rintro (⟨h1, h2⟩ | rfl)
            · exact ⟨h1, by omega⟩
            · exact ⟨hc, Or.inr ⟨rfl, Int.lt_succ idx⟩⟩
          · rintro ⟨h1, h2⟩
            by_cases e : c = (idx, start)
            · exact Or.inr e
            · refine Or.inl ⟨h1, ?_⟩
              have : ¬ (c.1 = idx ∧ c.2 = start) := fun h => e (Prod.ext h.1 h.2)
              omega) hbody
      refine cast ?_ this
      congr 1
      funext c
      simp only [IsSub, eq_iff_iff]
      constructor
      · rintro ⟨h1, h2⟩
        exact ⟨h1, by omega⟩
      · rintro ⟨h1, h2⟩
        exact ⟨h1, by omega⟩) hok
  refine cast ?_ this
  congr 1
  funext c
  simp only [IsSub, eq_iff_iff]
  constructor
  · rintro ⟨h1, h2⟩
    exact h1
  · intro h1
    exact ⟨h1, by omega⟩

theorem spaceInv_new {ds : Dataset α} {l : Int} {ls : LocalSpace α} (h : LocalSpace.new ds l = .ok ls) :
    SpaceInv ds l ls [] ∧ RepInv ds l ls.groups [] ∧ ls.groups = [] := by
  unfold LocalSpace.new at h
  simp only at h
  split at h
  · cases h
  · rename_i hn
    simp only [Res.ok.injEq] at h
    subst h
    refine ⟨⟨rfl, rfl, ?_, rfl, ?_, by simp⟩, ?_, rfl⟩
    · simp only [len_replicate]
      omega
    · intro k h
      simp at h
    · intro k h
      simp at h

end any

end Onex
