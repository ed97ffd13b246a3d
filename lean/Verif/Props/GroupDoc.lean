import Verif.Proofs.GroupDoc
import Verif.Proofs.GroupDocBad
import Verif.Props.Match
import Verif.Props.GroupFiles

/-!
# Property C63: group files made elsewhere
-/

namespace Onex
open DataT Spec

set_option linter.unusedSectionVars false

section any
variable {α : Type} [DataT α] {P : α → Prop} {rt rt6 : α → α}

/-- C63, for every number type: a file that describes groups fitting the dataset, whoever wrote it and however the groups were chosen,
is accepted in every state.  The call returns the number of groups described, the data are unchanged, and the dataset has exactly the
groups described, with their representatives (as printing and reading makes them) and members. -/
theorem C63_accepted (env : Env α) (hio : IOok env.io P rt rt6) (cnt L : ℕ) (hfit : SizeOk cnt L) (d : GroupDoc α)
    (hd : d.Fits P cnt L) (s : GSet α) (hc : s.ds.itemCount = cnt) (hl : s.ds.itemLength = L) :
    ∃ s', s.loadGroups env (some (d.text env.io cnt L)) =
        (.ok (((List.range' 2 (L - 1)).map fun l => (d.groups l).length).sum : ℕ), s') ∧
      s'.ds = s.ds ∧ s'.threshold = some (rt6 d.threshold) ∧ s'.groups.map (·.distanceName) = some d.distance ∧ d.HeldBy rt L s' := by
  obtain ⟨n, lc, e1, e2, e3⟩ := doc_load hio hfit hd hc hl
  rw [doc_count e2] at e3
  subst e3
  exact ⟨_, e1, rfl, rfl, rfl, doc_held rfl e2⟩

end any

variable {ρ : Rounding}

/-- `s₀`, or `s₀` after any number of answered matches of any real queries, each with its own band ratio. -/
inductive Spec.SearchedFrom (s₀ : GSet (F ρ)) (L : ℕ) : GSet (F ρ) → Prop where
  | start : SearchedFrom s₀ L s₀
  | matched {s env ratio query q c s'} (hs : SearchedFrom s₀ L s) (hf : FitEnv env (max L q.length) ratio)
      (hq : SeriesOk query q) (h : s.getBestMatch env query = (.ok c, s')) : SearchedFrom s₀ L s'

/-- The real number read back for `v`. -/
def realOf : F ρ → ℝ
  | .fin x => x
  | _ => 0

/-- Groups read from a description of real numbers can be searched. -/
theorem doc_searchOk {P : F ρ → Prop} {rt rt6 : F ρ → F ρ} {io : NumIO (F ρ)} (hio : IOok io P rt rt6)
    (hP : ∀ v, P v → ∃ x, v = F.fin x) {cnt L : ℕ} {d : GroupDoc (F ρ)} (hd : d.Fits P cnt L) (hfull : d.Full L) {ds : Dataset (F ρ)}
    {locals : List (Option (LocalSpace (F ρ)))} (h : LoadedAll rt ds L locals (contents d)) :
    SearchOk ds L locals (fun l => (d.groups l.toNat).map fun g => g.members.reverse)
      (fun l => (d.groups l.toNat).map fun g => g.rep.map fun v => realOf (rt v)) := by
  refine ⟨h.size, ?_, h.short⟩
  intro l l2 lL
  obtain ⟨ls, e1, e2⟩ := h.at_ l l2 lL
  obtain ⟨l, rfl⟩ := Int.eq_ofNat_of_zero_le (by omega : 0 ≤ l)
  have h2 : 2 ≤ l := by omega
  have hL : l ≤ L := by omega
  have hcard := e2.space.card
  simp only [contents, List.length_map, Int.toNat_natCast] at hcard
  refine ⟨ls, e1, ⟨?_, ⟨by simpa using hcard, ?_⟩, ?_, ?_, ?_⟩⟩
  · have := e2.space
    simpa only [contents, List.map_map, Function.comp_def, Int.toNat_natCast] using this
  · intro k hk hk'
    simp only [List.length_map, Int.toNat_natCast] at hk'
    have hc := e2.cent k hk (by simpa [contents] using hk')
    simp only [contents, List.getElem_map, Int.toNat_natCast] at hc
    refine ⟨{ vals := (d.groups l)[k].rep.map rt, cache := none }, by rw [hc]; rfl, ?_, by simp⟩
    simp only [List.getElem_map, fins, List.map_map, Int.toNat_natCast]
    refine List.map_congr_left fun v hv => ?_
    obtain ⟨x, hx⟩ := hP _ (hio.keep v ((hd.rep l h2 hL _ (List.getElem_mem hk')).2 v hv))
    simp [hx, realOf]
  · intro a ha
    obtain ⟨g, hg, rfl⟩ := List.mem_map.mp ha
    simpa using (hd.rep l h2 hL g (by simpa using hg)).1
  · intro m hm
    obtain ⟨g, hg, rfl⟩ := List.mem_map.mp hm
    simpa using (hfull l h2 hL).2 g (by simpa using hg)
  · simpa using List.length_pos_iff.mpr (hfull l h2 hL).1

/-- Searching keeps groups searchable. -/
theorem searchedFrom_inv {s₀ s : GSet (F ρ)} {L : ℕ} {R : List (List ℝ)} (hR : s₀.ds.Holds L (R.map fins)) {MM AA}
    (h0 : ∃ gs, s₀.groups = some gs ∧ SearchOk s₀.ds L gs.locals MM AA) (h : SearchedFrom s₀ L s) :
    s.ds = s₀.ds ∧ ∃ gs, s.groups = some gs ∧ SearchOk s₀.ds L gs.locals MM AA := by
  induction h with
  | start => exact ⟨rfl, h0⟩
  | @matched s env ratio query q c s' hs hf hq h ih =>
    obtain ⟨hds, gs, hg, hok⟩ := ih
    rw [getBestMatch_of hf.eq hg] at h
    by_cases h1 : q.length ≤ 1
    · exfalso
      unfold GlobalSpace.getBestMatch at h
      rw [if_pos (by unfold Series.length; rw [hq.vals]; simp [len]; omega)] at h
      simp at h
    by_cases h2 : q.length ≤ L
    · obtain ⟨l, c', gs', order, k, hM, hA, e, _, _, _, hok', _⟩ := globalMatch_spec hR env.junk
        (hf.mono (by omega : L ≤ max L q.length)).fits hok (by omega : 2 ≤ q.length) h2 hq
      rw [hds, e] at h
      simp only [Prod.mk.injEq] at h
      obtain ⟨_, rfl⟩ := h
      exact ⟨rfl, gs', rfl, hok'⟩
    · exfalso
      obtain ⟨why, e⟩ := globalMatch_long (ds := s.ds) (gs := gs) env.junk (by omega : 2 ≤ q.length)
        (by have := hok.size; simp only [len] at this; omega)
        (hf.mono (by omega : q.length ≤ max L q.length)).fits hq
      rw [e] at h
      simp at h

/-- What loading a full description gives. -/
theorem doc_start {P : F ρ → Prop} {rt rt6 : F ρ → F ρ} (env : Env (F ρ)) (hio : IOok env.io P rt rt6)
    (hP : ∀ v, P v → ∃ x, v = F.fin x) {s s₀ : GSet (F ρ)} {L : ℕ} {R : List (List ℝ)} (hR : s.ds.Holds L (R.map fins))
    (hfit : SizeOk R.length L) {d : GroupDoc (F ρ)} (hd : d.Fits P R.length L) (hfull : d.Full L) {n : Int}
    (h : s.loadGroups env (some (d.text env.io R.length L)) = (.ok n, s₀)) :
    s₀.ds = s.ds ∧ ∃ gs, s₀.groups = some gs ∧ SearchOk s₀.ds L gs.locals
      (fun l => (d.groups l.toNat).map fun g => g.members.reverse)
      (fun l => (d.groups l.toNat).map fun g => g.rep.map fun v => realOf (rt v)) := by
  obtain ⟨n', lc, e1, e2, _⟩ := doc_load hio hfit hd (HoldsReal.count hR) hR.itemLength
  rw [h] at e1
  simp only [Prod.mk.injEq, Res.ok.injEq] at e1
  obtain ⟨_, rfl⟩ := e1
  exact ⟨rfl, _, rfl, doc_searchOk hio hP hd hfull e2⟩

/-- C63, for every rounding: after a file describing groups that fit has been loaded into a dataset of real numbers, and after any number
of searches, every query of length 2 up to the series length is answered with a member listed in the file, at exactly the
finite warped distance the library computes between the query and that member.  This needs a group for every length and a member in every group (see
the two counterexamples below). -/
theorem C63_searchable_partial {P : F ρ → Prop} {rt rt6 : F ρ → F ρ} (env₀ : Env (F ρ)) (hio : IOok env₀.io P rt rt6)
    (hP : ∀ v, P v → ∃ x, v = F.fin x) (s s₀ : GSet (F ρ)) (L : ℕ) (R : List (List ℝ)) (hR : s.ds.Holds L (R.map fins))
    (hfit : SizeOk R.length L) (d : GroupDoc (F ρ)) (hd : d.Fits P R.length L) (hfull : d.Full L) (n : Int)
    (h : s.loadGroups env₀ (some (d.text env₀.io R.length L)) = (.ok n, s₀))
    (s₁ : GSet (F ρ)) (hs : SearchedFrom s₀ L s₁) (env : Env (F ρ)) (ratio : ℝ) (hf : FitEnv env L ratio)
    (q : List ℝ) (query : Series (F ρ)) (hq : SeriesOk query q) (h2 : 2 ≤ q.length) (hL : q.length ≤ L) :
    ∃ (l : ℕ) (c : Coord) (x : ℝ) (vals : List ℝ) (s₂ : GSet (F ρ)),
      s₁.getBestMatch env query = (.ok { ts := subView s.ds l c, dist := F.fin x }, s₂) ∧ SearchedFrom s₀ L s₂ ∧ s₂.ds = s.ds ∧
      (2 ≤ l ∧ l ≤ L) ∧ (∃ g ∈ d.groups l, c ∈ g.members) ∧ SubValues s.ds (subView s.ds l c) vals ∧
      warpedDistance (F.fin ratio) (fins q) (fins vals) F.pinf = .ok (F.fin x : F ρ) := by
  obtain ⟨hds₀, h0⟩ := doc_start env₀ hio hP hR hfit hd hfull h
  have hR₀ : s₀.ds.Holds L (R.map fins) := by rw [hds₀]; exact hR
  obtain ⟨hds, gs, hg, hok⟩ := searchedFrom_inv hR₀ h0 hs
  obtain ⟨l, c, gs', order, k, hM, hA, e, ⟨l2, lL⟩, hsub, hfin, hok', _, _, hc, _⟩ := globalMatch_spec hR₀ env.junk
    hf.fits hok h2 hL hq
  obtain ⟨l, rfl⟩ := Int.eq_ofNat_of_zero_le (by omega : 0 ≤ l)
  have hrun := getBestMatch_of hf.eq hg (query := query)
  rw [hds, e] at hrun
  simp only at hrun
  obtain ⟨r1, r2⟩ := resolve_sub hR₀ (by omega) hsub
  simp only [Int.toNat_natCast] at r2
  rcases wrd_val (ρ := ρ) ratio q (subVals R l c) (by omega) with e' | ⟨x, _, e'⟩
  · exact absurd e' hfin
  have hw : warpedDistance (F.fin ratio) (fins q) (fins (subVals R l c)) F.pinf = .ok (wrd ρ ratio q (subVals R l c)) :=
    warped_inf (ρ := ρ) (ratio := ratio) (a := q) (b := subVals R l c) (hf.fits _ (by omega)) (by omega) (by omega)
  rw [e'] at hw hrun
  simp only [List.getElem_map, Int.toNat_natCast, List.length_map, List.mem_reverse] at hc hM
  refine ⟨l, c, x, subVals R l c, _, by rw [hrun, hds₀], .matched hs (hf.mono (by omega : max L q.length ≤ L)) hq hrun, hds₀,
    ⟨by omega, by omega⟩, ⟨_, List.getElem_mem hM, hc⟩, ?_, hw⟩
  rw [← hds₀]
  exact r1

/-- C63, in exact arithmetic: moreover the answer comes from a group whose representative is as near to the query as any representative in the file,
and no member of that group is nearer than the answer. -/
theorem C63_nearest_partial {P : F Rounding.exact → Prop} {rt rt6 : F Rounding.exact → F Rounding.exact}
    (env₀ : Env (F Rounding.exact)) (hio : IOok env₀.io P rt rt6)
    (hP : ∀ v, P v → ∃ x, v = F.fin x) (s s₀ : GSet (F Rounding.exact)) (L : ℕ) (R : List (List ℝ))
    (hR : s.ds.Holds L (R.map fins)) (hfit : SizeOk R.length L) (d : GroupDoc (F Rounding.exact)) (hd : d.Fits P R.length L)
    (hfull : d.Full L) (n : Int) (h : s.loadGroups env₀ (some (d.text env₀.io R.length L)) = (.ok n, s₀))
    (s₁ : GSet (F Rounding.exact)) (hs : SearchedFrom s₀ L s₁) (env : Env (F Rounding.exact)) (ratio : ℝ) (hf : FitEnv env L ratio)
    (q : List ℝ) (query : Series (F Rounding.exact)) (hq : SeriesOk query q) (h2 : 2 ≤ q.length) (hL : q.length ≤ L) :
    ∃ (l : ℕ) (g : FileGroup (F Rounding.exact)) (c : Coord) (a : List ℝ) (s₂ : GSet (F Rounding.exact)),
      s₁.getBestMatch env query = (.ok { ts := subView s.ds l c, dist := warped ratio q (subVals R l c) }, s₂) ∧
      (2 ≤ l ∧ l ≤ L) ∧ g ∈ d.groups l ∧ c ∈ g.members ∧ g.rep.map rt = fins a ∧
      (∀ c' ∈ g.members, le (warped ratio q (subVals R l c)) (warped ratio q (subVals R l c')) = true) ∧
      ∀ l', 2 ≤ l' → l' ≤ L → ∀ g' ∈ d.groups l', ∃ a', g'.rep.map rt = fins a' ∧
        le (warped ratio q a) (warped ratio q a') = true := by
  obtain ⟨hds₀, h0⟩ := doc_start env₀ hio hP hR hfit hd hfull h
  have hR₀ : s₀.ds.Holds L (R.map fins) := by rw [hds₀]; exact hR
  obtain ⟨hds, gs, hg, hok⟩ := searchedFrom_inv hR₀ h0 hs
  obtain ⟨l, c, gs', order, k, hM, hA, e, ⟨l2, lL⟩, hsub, hfin, hok', _, hord, hc, hbest⟩ := globalMatch_spec hR₀ env.junk
    hf.fits hok h2 hL hq
  obtain ⟨b1, b2, _⟩ := hbest (honest_cascade env.junk ratio)
  obtain ⟨l, rfl⟩ := Int.eq_ofNat_of_zero_le (by omega : 0 ≤ l)
  have hrun := getBestMatch_of hf.eq hg (query := query)
  rw [hds, e] at hrun
  simp only at hrun
  have hread : ∀ l', 2 ≤ l' → l' ≤ L → ∀ g' ∈ d.groups l', g'.rep.map rt = fins (g'.rep.map fun v => realOf (rt v)) ∧
      g'.rep.length = l' := by
    intro l' k1 k2 g' hg'
    obtain ⟨k3, k4⟩ := hd.rep l' k1 k2 g' hg'
    refine ⟨?_, k3⟩
    simp only [fins, List.map_map]
    refine List.map_congr_left fun v hv => ?_
    obtain ⟨x, hx⟩ := hP _ (hio.keep v (k4 v hv))
    simp [hx, realOf]
  have hle : ∀ a b : List ℝ, 2 ≤ a.length → a.length ≤ L → 2 ≤ b.length → b.length ≤ L →
      ¬ lt (wrd Rounding.exact ratio q b) (wrd Rounding.exact ratio q a) = true →
      le (warped ratio q a) (warped ratio q b) = true := by
    intro a b a2 aL b2 bL hn
    rw [wrd_eq_warped ratio q a (hf.fits _ (by omega)) h2 a2, wrd_eq_warped ratio q b (hf.fits _ (by omega)) h2 b2] at hn
    have ha := wrd_val (ρ := Rounding.exact) ratio q a (by omega)
    have hb := wrd_val (ρ := Rounding.exact) ratio q b (by omega)
    rw [wrd_eq_warped ratio q a (hf.fits _ (by omega)) h2 a2] at ha
    rw [wrd_eq_warped ratio q b (hf.fits _ (by omega)) h2 b2] at hb
    rw [lt_iff] at hn
    rw [le_iff]
    rcases ha with e1 | ⟨x, _, e1⟩ <;> rcases hb with e2 | ⟨y, _, e2⟩ <;> rw [e1, e2] at hn ⊢
    · exact Or.inr trivial
    · exact absurd trivial hn
    · exact Or.inl trivial
    · exact (not_lt.mp hn).lt_or_eq
  have hM' : k < (d.groups l).length := by simpa using hM
  have hmem : (d.groups l)[k] ∈ d.groups l := List.getElem_mem hM'
  have hl2 : 2 ≤ l := by omega
  have hlL : l ≤ L := by omega
  obtain ⟨hrep, hrepl⟩ := hread l hl2 hlL _ hmem
  obtain ⟨_, r2⟩ := resolve_sub hR₀ (by omega) hsub
  simp only [Int.toNat_natCast] at r2
  simp only [List.getElem_map, Int.toNat_natCast, List.mem_reverse] at hc b1 b2
  rw [hds₀, wrd_eq_warped ratio q _ (hf.fits _ (by omega)) h2 (by omega)] at hrun
  refine ⟨l, (d.groups l)[k], c, (d.groups l)[k].rep.map fun v => realOf (rt v), _, hrun, ⟨hl2, hlL⟩, hmem, hc, hrep, ?_, ?_⟩
  · intro c' hc'
    have hsub' := hd.member l hl2 hlL _ hmem c' hc'
    rw [← HoldsReal.count hR₀, ← hR₀.itemLength] at hsub'
    obtain ⟨_, r2'⟩ := resolve_sub hR₀ (by omega) hsub'
    simp only [Int.toNat_natCast] at r2'
    exact hle _ _ (by omega) (by omega) (by omega) (by omega) (b1 c' hc')
  · intro l' k1 k2 g' hg'
    obtain ⟨hrep', hrepl'⟩ := hread l' k1 k2 g' hg'
    refine ⟨_, hrep', ?_⟩
    by_cases hin : (l' : Int) ∈ order
    · have := b2 l' hin (g'.rep.map fun v => realOf (rt v)) (List.mem_map_of_mem (by simpa using hg'))
      rw [wrd_comm ratio _ q, wrd_comm ratio _ q] at this
      exact hle _ _ (by simp; omega) (by simp; omega) (by simp; omega) (by simp; omega) this
    · have h0 : 0 ≤ ratio := (hf.fits 0 (by omega)).nonneg
      have hLr : (L : ℝ) * ratio < 2147483648 := (hf.fits L (le_refl _)).range
      obtain ⟨order', t1, _, _, t2, _⟩ := C32_traverse_order ratio q.length L h2 hL h0 hLr
      rw [hord, Res.ok.injEq] at t1
      subst t1
      have hinf : warped ratio q (g'.rep.map fun v => realOf (rt v)) = F.pinf := by
        by_contra hcon
        exact hin ((t2 l').mpr ⟨⟨by omega, by omega⟩, q, g'.rep.map fun v => realOf (rt v), rfl, by simp; omega, hcon⟩)
      rw [hinf, le_iff]
      have ha := wrd_val (ρ := Rounding.exact) ratio q ((d.groups l)[k].rep.map fun v => realOf (rt v)) (by omega)
      rw [wrd_eq_warped ratio q _ (hf.fits _ (by simp; omega)) h2 (by simp; omega)] at ha
      rcases ha with e1 | ⟨x, _, e1⟩ <;> rw [e1]
      · exact Or.inr trivial
      · exact Or.inl trivial

/-- A case for the three theorems above: two series of length 3, and a file that names only some of the sub-series and has a representative
that is none of them.  It is accepted; the query `[1, 2]` is answered, and `[0, 1, 2]` afterwards. -/
example (stod : Text → Stod (F Rounding.exact)) :
    let R : List (List ℝ) := [[0, 1, 2], [5, 5, 6]]
    let env : Env (F Rounding.exact) := ⟨F.fin 1, F.nan, intIO, stod, fun _ => false⟩
    let s : GSet (F Rounding.exact) := ⟨⟨some (R.map fins).flatten, 0, 3, 2, "", false⟩, none, none⟩
    let d : GroupDoc (F Rounding.exact) := ⟨F.fin 1, "euclidean_dtw", fun l =>
      if l = 2 then [⟨fins [0, 1], [(0, 0), (0, 1)]⟩, ⟨fins [7, 7], [(1, 1)]⟩] else [⟨fins [9, 9, 9], [(1, 0)]⟩]⟩
    ∃ s₀, s.loadGroups env (some (d.text env.io 2 3)) = (.ok 3, s₀) ∧
      ∃ c s₁, s₀.getBestMatch env (Series.mk' (fins [1, 2])) = (.ok c, s₁) ∧
        ∃ c' s₂, s₁.getBestMatch env (Series.mk' (fins [0, 1, 2])) = (.ok c', s₂) := by
  intro R env s d
  have hR : s.ds.Holds 3 (R.map fins) := by
    refine ⟨?_, rfl, rfl, [], by simp [s]⟩
    intro r hr
    simp only [R, List.map_cons, List.map_nil, List.mem_cons, List.not_mem_nil, or_false] at hr
    rcases hr with rfl | rfl <;> rfl
  have hfin : ∀ (x : List ℝ), ∀ v ∈ (fins x : List (F Rounding.exact)), ∃ y, v = F.fin y := by
    intro x v hv
    obtain ⟨y, _, rfl⟩ := List.mem_map.mp hv
    exact ⟨y, rfl⟩
  have hl : ∀ l, 2 ≤ l → l ≤ 3 → l = 2 ∨ l = 3 := by intro l a b; omega
  have hd : d.Fits (fun v => ∃ x, v = F.fin x) R.length 3 := by
    refine ⟨Or.inr rfl, ⟨1, rfl⟩, ?_, ?_, ?_, ?_⟩ <;> intro l a b <;> rcases hl l a b with rfl | rfl
    · intro g hg
      simp only [d, if_true, List.mem_cons, List.not_mem_nil, or_false] at hg
      rcases hg with rfl | rfl <;> exact ⟨rfl, hfin _⟩
    · intro g hg
      simp only [d, show ¬ (3 = 2) by decide, if_false, List.mem_singleton] at hg
      subst hg
      exact ⟨rfl, hfin _⟩
    · intro g hg c hc
      simp only [d, if_true, List.mem_cons, List.not_mem_nil, or_false] at hg
      rcases hg with rfl | rfl <;> simp only [List.mem_cons, List.not_mem_nil, or_false] at hc
      · rcases hc with rfl | rfl <;> exact ⟨⟨by decide, by decide⟩, by decide, by decide⟩
      · subst hc
        exact ⟨⟨by decide, by decide⟩, by decide, by decide⟩
    · intro g hg c hc
      simp only [d, show ¬ (3 = 2) by decide, if_false, List.mem_singleton] at hg
      subst hg
      simp only [List.mem_singleton] at hc
      subst hc
      exact ⟨⟨by decide, by decide⟩, by decide, by decide⟩
    · simp [d]
    · simp [d]
    · simp [d]
    · simp [d]
  have hfull : d.Full 3 := by
    intro l a b
    rcases hl l a b with rfl | rfl <;> simp [d]
  have hfit : SizeOk R.length 3 := ⟨by decide, by decide, by decide⟩
  have hP : ∀ v : F Rounding.exact, (∃ x, v = F.fin x) → ∃ x, v = F.fin x := fun _ h => h
  have hf : FitEnv env 3 1 := ⟨rfl, ratioOk_of (by norm_num) (by norm_num)⟩
  obtain ⟨s₀, e0, _⟩ := C63_accepted env intIO_ok R.length 3 hfit d hd s rfl rfl
  have hn : (((List.range' 2 (3 - 1)).map fun l => (d.groups l).length).sum : ℕ) = 3 := rfl
  rw [hn] at e0
  obtain ⟨_, _, _, _, s₁, e1, h1, _⟩ := C63_searchable_partial env intIO_ok hP s s₀ 3 R hR hfit d hd hfull _ e0 s₀ .start env 1 hf
    [1, 2] _ (seriesOk_mk _) (by simp) (by simp)
  obtain ⟨_, _, _, _, s₂, e2, _⟩ := C63_nearest_partial env intIO_ok hP s s₀ 3 R hR hfit d hd hfull _ e0 s₁ h1 env 1 hf
    [0, 1, 2] _ (seriesOk_mk _) (by simp) (by simp)
  exact ⟨s₀, e0, _, s₁, e1, _, s₂, e2⟩

/-! ## Files that do not fit -/

/-- A description of one group of length 2. -/
def oneDoc (st : F ρ) (rep : List (F ρ)) (ms : List Coord) : GroupDoc (F ρ) := ⟨st, "euclidean", fun _ => [⟨rep, ms⟩]⟩

theorem oneDoc_text (io : NumIO (F ρ)) (st : F ρ) (rep : List (F ρ)) (ms : List Coord) (cnt : ℕ) :
    (oneDoc st rep ms).text io cnt 2 =
      headText io st cnt "euclidean" ++ oneText io rep ms.length (membersText ms ++ ['\n']) := by
  rw [doc_text]
  unfold fileText spaceText headText oneText
  have h1 : allText io (contents (oneDoc st rep ms)) 2 (2 - 1) =
      showInt 1 ++ '\n' :: (printData io rep ++ '\n' :: (showInt ms.length ++ ' ' :: (membersText ms ++ ['\n']))) := by
    simp [allText, localText, contents, oneDoc, groupsText, groupText]
  rw [h1]
  simp [oneDoc]

theorem oneDoc_fits {P : F ρ → Prop} {st : F ρ} (hst : P st) {rep : List (F ρ)} (hrep : rep.length = 2) (hrP : ∀ v ∈ rep, P v)
    {ms : List Coord} {cnt : ℕ} (hsub : ∀ c ∈ ms, IsSub cnt 2 2 c) (hnd : ms.Nodup) : (oneDoc st rep ms).Fits P cnt 2 := by
  have hl : ∀ l, 2 ≤ l → l ≤ 2 → l = 2 := by intro l a b; omega
  refine ⟨Or.inl rfl, hst, ?_, ?_, ?_, ?_⟩
  · intro l a b g hg
    simp only [oneDoc, List.mem_singleton] at hg
    subst hg
    exact ⟨by rw [hl l a b]; exact hrep, hrP⟩
  · intro l a b g hg
    simp only [oneDoc, List.mem_singleton] at hg
    subst hg
    rw [hl l a b]
    exact hsub
  · intro l _ _
    simpa [oneDoc] using hnd
  · intro l _ _
    simp [oneDoc]

/-- Saving never ends, and neither does any search for two points. -/
def Spec.Endless (s : GSet (F ρ)) : Prop :=
  (∀ env, s.saveGroups env true false = .ub "diverges") ∧
  ∀ (env : Env (F ρ)) (ratio : ℝ), FitEnv env 2 ratio → ∀ (q : List ℝ) (query : Series (F ρ)), SeriesOk query q → q.length = 2 →
    (s.getBestMatch env query).1 = .ub "diverges"

theorem looped_endless {s : GSet (F ρ)} {R : List (List ℝ)} (hR : s.ds.Holds 2 (R.map fins)) (hne : R ≠ []) {th : F ρ} {name : String}
    {g : Group (F ρ)} {mm : List Membership} {e : Membership} (h : Looped (space₀ [g] mm) g e) {a : List ℝ} (ha : a.length = 2)
    (hg : g.centroid = { src := .own (fins a), cache := none }) :
    Endless { s with groups := some { locals := [none, none, some (space₀ [g] mm)], distanceName := name }, threshold := some th } := by
  refine ⟨?_, ?_⟩
  · intro env
    unfold GSet.saveGroups GlobalSpace.saveGroups
    simp only [if_true, List.drop_succ_cons, List.drop_zero, saveLocals, LocalSpace.saveGroups, space₀, saveGroupList,
      Bool.false_eq_true, if_false, Group.saveGroup, hg, h.last]
    have := save_diverges h
    simp only [space₀] at this
    rw [show Cent.resolve s.ds { src := CentSrc.own (fins a), cache := none } = .ok { vals := fins a, cache := none } from rfl,
      Res.bind_ok, this]
    rfl
  · intro env ratio hf q query hq hq2
    rw [getBestMatch_of hf.eq rfl]
    obtain ⟨x, query', gs', hq', e1⟩ := one_search (ds := s.ds) (hf.fits 2 (le_refl _)) env.junk
      (gs := { locals := [none, none, some (space₀ [g] mm)], distanceName := name }) rfl (g := g) rfl (a := a)
      ⟨{ vals := fins a, cache := none }, by rw [hg]; rfl, rfl, by simp⟩ ha hq hq2
    have hsub : IsSub s.ds.itemCount s.ds.itemLength 2 (0, 0) := by
      rw [HoldsReal.count hR, hR.itemLength]
      have := List.length_pos_iff.mpr hne
      exact ⟨⟨le_refl _, by simp only; omega⟩, le_refl _, by simp⟩
    obtain ⟨r1, r2⟩ := resolve_sub hR (by omega) hsub
    have hloop : Looped (space₀ [recache g x] mm) (recache g x) e := ⟨rfl, h.last, h.subCount, h.memberLength, h.slot, h.prev⟩
    have hts := getTimeSeries_sub (ds := s.ds) (by omega : (1 : Int) ≤ 2) hsub
    simp only [zero_add] at hts
    have := match_diverges (faithful_cascade env.junk ratio) (q := q) hts r1
      ⟨hf.fits _ (by rw [r2, hq2]; simp), by omega, by omega⟩ hloop (mm.length + 1) F.pinf (0, 0) query' hq'
    have hlast : (recache g x).last = (0, 0) := h.last
    rw [e1]
    simp only [Group.getBestMatch, hlast, space₀] at this ⊢
    rw [show (DataT.inf : F ρ) = F.pinf from rfl, this]
    rfl

/-- Adding the member (0, 0) to a group that has it. -/
theorem looped_add {rep : List (F ρ)} {cnt : ℕ} (hc : 1 ≤ cnt) :
    ∃ (g : Group (F ρ)) (e : Membership) (mm : List Membership) (g1 : Group (F ρ)) (mm1 : List Membership),
      (group₀ rep).addMember (List.replicate cnt Membership.default) 0 0 = .ok (g1, mm1) ∧ g1.addMember mm1 0 0 = .ok (g, mm) ∧
      Looped (space₀ [g] mm) g e ∧ g.centroid = { src := .own rep, cache := none } := by
  obtain ⟨m, rfl⟩ : ∃ m, cnt = m + 1 := ⟨cnt - 1, by omega⟩
  exact ⟨{ group₀ rep with count := 2, last := (0, 0) }, { groupIndex := 0, prev := (0, 0) },
    { groupIndex := 0, prev := (0, 0) } :: List.replicate m Membership.default,
    { group₀ rep with count := 1, last := (0, 0) }, { groupIndex := 0, prev := (-1, -1) } :: List.replicate m Membership.default,
    by simp [Group.addMember, vset, group₀, Group.new, List.replicate_succ], by simp [Group.addMember, vset, group₀, Group.new], ⟨rfl, rfl, rfl, rfl, rfl, rfl⟩, rfl⟩

theorem reals_of {P : F ρ → Prop} {rt rt6 : F ρ → F ρ} {io : NumIO (F ρ)} (hio : IOok io P rt rt6)
    (hP : ∀ v, P v → ∃ x, v = F.fin x) {rep : List (F ρ)} (hrP : ∀ v ∈ rep, P v) :
    rep.map rt = fins (rep.map fun v => realOf (rt v)) := by
  simp only [fins, List.map_map]
  refine List.map_congr_left fun v hv => ?_
  obtain ⟨x, hx⟩ := hP _ (hio.keep v (hrP v hv))
  simp [hx, realOf]

/-- C63, false if a member may be listed twice: such a file is accepted, and from then on saving and searching never end. -/
theorem C63_twice_counterexample {P : F ρ → Prop} {rt rt6 : F ρ → F ρ} (env : Env (F ρ)) (hio : IOok env.io P rt rt6)
    (hP : ∀ v, P v → ∃ x, v = F.fin x) (s : GSet (F ρ)) (R : List (List ℝ)) (hR : s.ds.Holds 2 (R.map fins)) (hne : R ≠ [])
    (hfit : R.length ≤ 2147483647) (st : F ρ) (hst : P st) (rep : List (F ρ)) (hrep : rep.length = 2) (hrP : ∀ v ∈ rep, P v) :
    ∃ s', s.loadGroups env (some (GroupDoc.text env.io R.length 2 ⟨st, "euclidean", fun _ => [⟨rep, [(0, 0), (0, 0)]⟩]⟩)) = (.ok 1, s') ∧
      Endless s' := by
  have hc := HoldsReal.count hR
  have hpos := List.length_pos_iff.mpr hne
  obtain ⟨str, h1, e1⟩ := one_load (t := s) hio hR.itemLength (by omega) (by omega) (name := "euclidean") rfl hst hrep hrP (k := 2) (by decide)
    (membersText [(0, 0), (0, 0)] ++ ['\n'])
  have := oneDoc_text env.io st rep [(0, 0), (0, 0)] R.length
  unfold oneDoc at this
  rw [this]
  rw [hc] at e1
  simp only [Int.toNat_natCast] at e1
  obtain ⟨g, e, mm, g1, mm1, a1, a2, a3, a4⟩ := looped_add (rep := rep.map rt) (cnt := R.length) hpos
  simp only [membersText, List.append_assoc, List.cons_append, List.nil_append] at h1
  obtain ⟨s1, b1, h1⟩ := readInt_show (by decide) rfl h1
  obtain ⟨s2, b2, h1⟩ := readInt_show (by decide) rfl h1
  obtain ⟨s3, b3, h1⟩ := readInt_show (by decide) rfl h1
  obtain ⟨s4, b4, h1⟩ := readInt_show (by decide) rfl h1
  have hor : ∀ (x : Int) (o : Option Int), (some x <|> o) = some x := fun _ _ => rfl
  have hloop : memberLoop (group₀ (rep.map rt)) (List.replicate R.length Membership.default) 2 str =
      .ok { stream := s4, index := some 0, start := some 0, group := g, mm := mm } := by
    unfold memberLoop
    rw [forInt_succ (by decide)]
    simp only [b1, b2, hor, a1, Res.bind_ok, Res.pure_eq]
    rw [forInt_succ (by decide)]
    simp only [b3, b4, hor, a2, Res.bind_ok]
    rw [forInt_of_le (by decide)]
  rw [hloop] at e1
  refine ⟨_, e1, ?_⟩
  rw [reals_of hio hP hrP] at a4
  exact looped_endless hR hne a3 (by simpa using hrep) a4

theorem readInt_end {s : Stream} (h : At s []) : readInt s = (none, { rest := [], fail := true }) := by
  obtain ⟨h1, ws, h2, h3⟩ := h
  unfold readInt
  rw [h1, h3]
  have : (ws ++ []).dropWhile isSpace = [] := by
    rw [dropWhile_spaces h2]
    rfl
  simp only [Bool.false_eq_true, if_false, this]
  rfl

/-- C63, false of files cut short: the file describes two members and is cut after the first.  It is accepted, and from then on saving and
searching never end. -/
theorem C63_cut_counterexample {P : F ρ → Prop} {rt rt6 : F ρ → F ρ} (env : Env (F ρ)) (hio : IOok env.io P rt rt6)
    (hP : ∀ v, P v → ∃ x, v = F.fin x) (s : GSet (F ρ)) (R : List (List ℝ)) (hR : s.ds.Holds 2 (R.map fins)) (hne : 2 ≤ R.length)
    (hfit : R.length ≤ 2147483647) (st : F ρ) (hst : P st) (rep : List (F ρ)) (hrep : rep.length = 2) (hrP : ∀ v ∈ rep, P v) :
    let d : GroupDoc (F ρ) := ⟨st, "euclidean", fun _ => [⟨rep, [(0, 0), (1, 0)]⟩]⟩
    d.Fits P R.length 2 ∧ d.Full 2 ∧ ∃ start rest, d.text env.io R.length 2 = start ++ rest ∧ ∃ s',
      s.loadGroups env (some start) = (.ok 1, s') ∧ Endless s' := by
  have hc := HoldsReal.count hR
  refine ⟨oneDoc_fits (ms := [(0, 0), (1, 0)]) hst hrep hrP ?_ (by decide), ?_, ?_⟩
  · intro c hc
    simp only [List.mem_cons, List.not_mem_nil, or_false] at hc
    rcases hc with rfl | rfl <;> exact ⟨⟨by simp, by simp only; omega⟩, by simp, by simp⟩
  · intro l _ _
    simp
  obtain ⟨str, h1, e1⟩ := one_load (t := s) hio hR.itemLength (by omega) (by omega) (name := "euclidean") rfl hst hrep hrP (k := 2) (by decide)
    (membersText [(0, 0)])
  have := oneDoc_text env.io st rep [(0, 0), (1, 0)] R.length
  unfold oneDoc at this
  rw [hc] at e1
  simp only [Int.toNat_natCast] at e1
  obtain ⟨g, e, mm, g1, mm1, a1, a2, a3, a4⟩ := looped_add (rep := rep.map rt) (cnt := R.length) (by omega)
  simp only [membersText] at h1
  obtain ⟨s1, b1, h1⟩ := readInt_show (by decide) rfl h1
  obtain ⟨s2, b2, h1⟩ := readInt_show (by decide) rfl h1
  have b3 := readInt_end h1
  have b4 : readInt { rest := [], fail := true } = (none, { rest := [], fail := true }) := rfl
  have hor : ∀ (x : Int) (o : Option Int), (some x <|> o) = some x := fun _ _ => rfl
  have hor' : ∀ (o : Option Int), ((none : Option Int) <|> o) = o := fun _ => rfl
  have hloop : memberLoop (group₀ (rep.map rt)) (List.replicate R.length Membership.default) 2 str =
      .ok { stream := { rest := [], fail := true }, index := some 0, start := some 0, group := g, mm := mm } := by
    unfold memberLoop
    rw [forInt_succ (by decide)]
    simp only [b1, b2, hor, a1, Res.bind_ok, Res.pure_eq]
    rw [forInt_succ (by decide)]
    simp only [b3, b4, hor', a2, Res.bind_ok]
    rw [forInt_of_le (by decide)]
  rw [hloop] at e1
  refine ⟨_, showInt 1 ++ ' ' :: (showInt 0 ++ [' ', '\n']), ?_, _, e1, ?_⟩
  · rw [this]
    simp [oneText, membersText]
  · rw [reals_of hio hP hrP] at a4
    exact looped_endless hR (by rintro rfl; simp at hne) a3 (by simpa using hrep) a4

/-- C63, false of files cut after the header: reading goes on with an uninitialised count. -/
theorem C63_header_counterexample {P : F ρ → Prop} {rt rt6 : F ρ → F ρ} (env : Env (F ρ)) (hio : IOok env.io P rt rt6)
    (s : GSet (F ρ)) (cnt : ℕ) (hc : s.ds.itemCount = cnt) (hl : s.ds.itemLength = 2)
    (hfit : cnt ≤ 2147483647) (st : F ρ) (hst : P st) (gs : ℕ → List (FileGroup (F ρ))) :
    ∃ start rest, GroupDoc.text env.io cnt 2 ⟨st, "euclidean", gs⟩ = start ++ rest ∧ rest ≠ [] ∧
      (s.loadGroups env (some start)).1 = .ub "uninitialised read" := by
  obtain ⟨str, h1, e1⟩ := head_load (t := s) hio hl (by omega) (by omega) (name := "euclidean") rfl hst []
  refine ⟨headText env.io st cnt "euclidean", allText env.io (contents ⟨st, "euclidean", gs⟩) 2 1, ?_, ?_, ?_⟩
  · rw [doc_text]
    unfold fileText spaceText headText
    simp
  · simp [allText, localText]
  · rw [List.append_nil, hc] at e1
    rw [e1]
    unfold LocalSpace.loadGroups
    simp only [readInt_end h1]

/-- C63, false of members outside the dataset: reading the file writes past the end of the member table, whatever comes after. -/
theorem C63_outside_counterexample {P : F ρ → Prop} {rt rt6 : F ρ → F ρ} (env : Env (F ρ)) (hio : IOok env.io P rt rt6)
    (s : GSet (F ρ)) (cnt : ℕ) (hc : s.ds.itemCount = cnt) (hl : s.ds.itemLength = 2)
    (hfit : cnt ≤ 2147483647) (st : F ρ) (hst : P st) (rep : List (F ρ)) (hrep : rep.length = 2) (hrP : ∀ v ∈ rep, P v)
    (i : ℕ) (hi : cnt ≤ i) (hi' : i ≤ 2147483647) (ms : List Coord) (hms : ms.length < 2147483647) :
    (s.loadGroups env (some (GroupDoc.text env.io cnt 2 ⟨st, "euclidean", fun _ => [⟨rep, (i, 0) :: ms⟩]⟩))).1 =
      .ub "write out of bounds" := by
  have := oneDoc_text env.io st rep ((i, 0) :: ms) cnt
  unfold oneDoc at this
  obtain ⟨str, h1, e1⟩ := one_load (t := s) hio hl (by omega) (by omega) (name := "euclidean") rfl hst hrep hrP
    (k := (((i : Int), (0 : Int)) :: ms).length) (by simp only [List.length_cons, inIntRange, decide_eq_true_eq]; omega)
    (membersText (((i : Int), (0 : Int)) :: ms) ++ ['\n'])
  rw [hc] at e1
  rw [this, e1]
  simp only [membersText, List.append_assoc, List.cons_append] at h1
  obtain ⟨s1, b1, h1⟩ := readInt_show (by simp only [inIntRange, decide_eq_true_eq]; omega) rfl h1
  obtain ⟨s2, b2, h1⟩ := readInt_show (by decide) rfl h1
  have hor : ∀ (x : Int) (o : Option Int), (some x <|> o) = some x := fun _ _ => rfl
  have hadd : (group₀ (rep.map rt)).addMember (List.replicate cnt Membership.default) i 0 = .ub "write out of bounds" := by
    unfold Group.addMember vset
    simp only [group₀, Group.new, len, List.length_replicate]
    rw [if_neg (by omega)]
    rfl
  have hloop : memberLoop (group₀ (rep.map rt)) (List.replicate cnt Membership.default) (((i : Int), (0 : Int)) :: ms).length str =
      .ub "write out of bounds" := by
    unfold memberLoop
    rw [forInt_succ (by simp)]
    simp only [b1, b2, hor, hadd]
    rfl
  simp only [Int.toNat_natCast, hloop]

/-- C63: a group for every length is needed.  A file that describes no groups fits; it is accepted, and every search for two points
dereferences a null pointer. -/
theorem C63_no_groups_counterexample {α : Type} [DataT α] {P : α → Prop} {rt rt6 : α → α} (env : Env α) (hio : IOok env.io P rt rt6)
    (s : GSet α) (cnt : ℕ) (hc : s.ds.itemCount = cnt) (hl : s.ds.itemLength = 2) (hfit : SizeOk cnt 2) (st : α) (hst : P st) :
    let d : GroupDoc α := ⟨st, "euclidean", fun _ => []⟩
    d.Fits P cnt 2 ∧ ∃ s', s.loadGroups env (some (d.text env.io cnt 2)) = (.ok 0, s') ∧
      ∀ env' (query : Series α), query.length = 2 → (s'.getBestMatch env' query).1 = .ub "null dereference" := by
  intro d
  have hd : d.Fits P cnt 2 := ⟨Or.inl rfl, hst, by simp [d], by simp [d], by simp [d], by simp [d]⟩
  refine ⟨hd, ?_⟩
  obtain ⟨n, lc, e1, e2, e3⟩ := doc_load hio hfit hd hc hl
  rw [doc_count e2] at e3
  have hn : n = 0 := by
    rw [e3]
    simp [d]
  subst hn
  refine ⟨_, e1, ?_⟩
  intro env' query hq
  obtain ⟨ls, b1, b2⟩ := e2.at_ 2 (le_refl _) (by simp)
  have hgs : ls.groups = [] := by
    have := b2.space.card
    simp only [contents, d, List.map_nil, List.length_nil] at this
    exact List.length_eq_zero_iff.mp this
  have hsz := e2.size
  obtain ⟨lc', b3⟩ : ∃ x, vset lc 2 (some ls) = .ok x := ⟨_, vset_ok _ (by omega) (by rw [hsz]; simp)⟩
  unfold GSet.getBestMatch GlobalSpace.getBestMatch
  simp only [hq]
  rw [if_neg (by omega), show len lc - 1 = 2 from by rw [hsz]; rfl, order_two, Res.bind_ok]
  have hnear : ∀ (d : Dist α), nearest s.ds d [] query (DataT.inf : α) =
      .ok { groups := [], query := query, best := DataT.inf, bestIdx := none } := by
    intro d
    unfold nearest
    rw [forInt_of_le (by simp [len])]
  have hls : ({ ls with groups := [] } : LocalSpace α) = ls := by
    cases ls
    simp only at hgs
    rw [hgs]
  simp only [searchLoop, searchStep, b1, Res.bind_ok, LocalSpace.getBestGroup, hgs, hnear, Res.pure_eq, hls, b3, Option.map_none]
  by_cases h : DataT.lt (DataT.inf : α) DataT.inf = true
  · rw [if_pos h]
    rfl
  · rw [if_neg h]
    rfl

/-- C63: a member in every group is needed.  A file that describes a group without members fits; it is accepted, and every search for
two points answers with the first window of the dataset, at infinite distance. -/
theorem C63_no_members_counterexample {P : F ρ → Prop} {rt rt6 : F ρ → F ρ} (env : Env (F ρ)) (hio : IOok env.io P rt rt6)
    (hP : ∀ v, P v → ∃ x, v = F.fin x) (s : GSet (F ρ)) (cnt : ℕ) (hc : s.ds.itemCount = cnt) (hl : s.ds.itemLength = 2) (hpos : 1 ≤ cnt)
    (hfit : cnt ≤ 2147483647) (st : F ρ) (hst : P st) (rep : List (F ρ)) (hrep : rep.length = 2) (hrP : ∀ v ∈ rep, P v) :
    let d : GroupDoc (F ρ) := ⟨st, "euclidean", fun _ => [⟨rep, []⟩]⟩
    d.Fits P cnt 2 ∧ ∃ s', s.loadGroups env (some (d.text env.io cnt 2)) = (.ok 1, s') ∧
      ∀ (env' : Env (F ρ)) (ratio : ℝ), FitEnv env' 2 ratio → ∀ (q : List ℝ) (query : Series (F ρ)), SeriesOk query q → q.length = 2 →
        (s'.getBestMatch env' query).1 = .ok { ts := subView s.ds 2 (0, 0), dist := F.pinf } := by
  have := oneDoc_text env.io st rep [] cnt
  unfold oneDoc at this
  refine ⟨oneDoc_fits (ms := []) hst hrep hrP (by simp) (by simp), ?_⟩
  obtain ⟨str, h1, e1⟩ := one_load (t := s) hio hl (by omega) (by omega) (name := "euclidean") rfl hst hrep hrP (k := 0) (by decide)
    (membersText [] ++ ['\n'])
  rw [hc] at e1
  simp only [memberLoop, forInt_of_le (le_refl (0 : Int))] at e1
  refine ⟨_, by rw [this]; exact e1, ?_⟩
  intro env' ratio hf q query hq hq2
  rw [getBestMatch_of hf.eq rfl]
  obtain ⟨x, query', gs', hq', e2⟩ := one_search (ds := s.ds) (hf.fits 2 (le_refl _)) env'.junk
    (gs := { locals := [none, none, some (space₀ [group₀ (rep.map rt)] (List.replicate (cnt : Int).toNat Membership.default))], distanceName := "euclidean" })
    rfl (g := group₀ (rep.map rt)) rfl (a := rep.map fun v => realOf (rt v))
    ⟨{ vals := rep.map rt, cache := none }, rfl, reals_of hio hP hrP, by simp⟩ (by simpa using hrep) hq hq2
  rw [e2]
  have hsub : IsSub s.ds.itemCount s.ds.itemLength 2 (0, 0) := by
    rw [hc, hl]
    exact ⟨⟨le_refl _, by simp only; omega⟩, le_refl _, by simp⟩
  have hts := getTimeSeries_sub (ds := s.ds) (by omega : (1 : Int) ≤ 2) hsub
  simp only at hts
  have hlast : (recache (group₀ (rep.map rt)) x).last = (-1, -1) := rfl
  have hml : (recache (group₀ (rep.map rt)) x).memberLength = 2 := rfl
  unfold Group.getBestMatch Group.bestMatchLoop
  rw [hlast, if_pos rfl, Res.bind_ok]
  simp only [hml, hts, Res.bind_ok, Res.pure_eq]
  rfl

/-- A case for the counterexamples: three series of length 2, all numbers 0. -/
example (stod : Text → Stod (F Rounding.exact)) :
    let R : List (List ℝ) := [[0, 0], [0, 0], [0, 0]]
    let env : Env (F Rounding.exact) := ⟨F.fin 1, F.nan, intIO, stod, fun _ => false⟩
    let s : GSet (F Rounding.exact) := ⟨⟨some (R.map fins).flatten, 0, 2, 3, "", false⟩, none, none⟩
    let file (ms : List Coord) := some (GroupDoc.text env.io 3 2 ⟨F.fin 0, "euclidean", fun _ => [⟨fins [0, 0], ms⟩]⟩)
    (∃ s', s.loadGroups env (file [(0, 0), (0, 0)]) = (.ok 1, s') ∧ Endless s') ∧
    (s.loadGroups env (file [(3, 0), (0, 0)])).1 = .ub "write out of bounds" ∧
    (∃ s', s.loadGroups env (file []) = (.ok 1, s') ∧
      (s'.getBestMatch env (Series.mk' (fins [0, 0]))).1 = .ok { ts := subView s.ds 2 (0, 0), dist := F.pinf }) := by
  intro R env s file
  have hR : s.ds.Holds 2 (R.map fins) := by
    refine ⟨?_, rfl, rfl, [], by simp [s]⟩
    intro r hr
    simp only [R, List.map_cons, List.map_nil, List.mem_cons, List.not_mem_nil, or_false] at hr
    rcases hr with rfl | rfl | rfl <;> rfl
  have hrP : ∀ v ∈ (fins [0, 0] : List (F Rounding.exact)), ∃ x, v = F.fin x := by
    intro v hv
    obtain ⟨y, _, rfl⟩ := List.mem_map.mp hv
    exact ⟨y, rfl⟩
  have hf : FitEnv env 2 1 := ⟨rfl, ratioOk_of (by norm_num) (by norm_num)⟩
  refine ⟨C63_twice_counterexample env intIO_ok (fun _ h => h) s R hR (by simp [R]) (by decide) (F.fin 0) ⟨0, rfl⟩ (fins [0, 0]) rfl hrP,
    C63_outside_counterexample env intIO_ok s 3 rfl rfl (by decide) (F.fin 0) ⟨0, rfl⟩ (fins [0, 0]) rfl hrP 3 (le_refl _) (by decide)
      [(0, 0)] (by decide), ?_⟩
  obtain ⟨_, s', e, h⟩ := C63_no_members_counterexample env intIO_ok (fun _ h => h) s 3 rfl rfl (by decide) (by decide) (F.fin 0) ⟨0, rfl⟩
    (fins [0, 0]) rfl hrP
  exact ⟨s', e, h env 1 hf [0, 0] _ (seriesOk_mk _) rfl⟩

end Onex
