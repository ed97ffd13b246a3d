import Verif.Proofs.BestMatch

/-!
# Properties C30 and C31: nearest group, best member of a group
-/

namespace Onex
open DataT Spec

/-- The three distance functions the library passes around (by name, or inside a search), the
series they are meant for, and what they mean. -/
inductive LibDist (junk : F Rounding.exact) (ratio : ℝ) : Dist (F Rounding.exact) →
    (List ℝ → List ℝ → Prop) → (List ℝ → List ℝ → F Rounding.exact) → Prop where
  | euclidean : LibDist junk ratio (DistName.euclidean.fn (F.fin ratio))
      (fun a b => a.length = b.length ∧ 0 < a.length) (fun a b => F.fin (rms a b))
  | dtw : LibDist junk ratio (DistName.euclideanDtw.fn (F.fin ratio))
      (fun a b => RatioFits ratio a b ∧ 2 ≤ a.length ∧ 2 ≤ b.length) (warped ratio)
  | cascade : LibDist junk ratio (cascadeDistance junk (F.fin ratio))
      (fun a b => RatioFits ratio a b ∧ 2 ≤ a.length ∧ 2 ≤ b.length) (warped ratio)

theorem Honest.congr {ρ : Rounding} {d : Dist (F ρ)} {dom dom' : List ℝ → List ℝ → Prop}
    {W W' : List ℝ → List ℝ → F ρ} (h : Honest d dom W) (hdom : ∀ a b, dom' a b → dom a b)
    (hW : ∀ a b, dom' a b → W a b = W' a b) : Honest d dom' W' where
  run := by
    intro a b sa sb dropout hab ha hb
    rw [← hW a b hab]
    exact h.run a b sa sb dropout (hdom a b hab) ha hb
  val := by
    intro a b hab
    rw [← hW a b hab]
    exact h.val a b (hdom a b hab)
  below := by
    intro a b sa sb dropout v sa' sb' hab ha hb hrun hlt
    rw [← hW a b hab] at hlt ⊢
    exact h.below a b sa sb dropout v sa' sb' (hdom a b hab) ha hb hrun hlt

theorem LibDist.honest {junk : F Rounding.exact} {ratio : ℝ} {d dom W} (h : LibDist junk ratio d dom W) :
    Honest d dom W := by
  cases h with
  | euclidean =>
    refine (honest_euclid (F.fin ratio)).congr (fun a b h => h) ?_
    intro a b _
    rw [eud_exact]
  | dtw =>
    refine (honest_dtw ratio).congr (fun a b h => ⟨h.1.ok, h.2⟩) ?_
    intro a b h
    exact wrd_eq_warped ratio a b h.1.ok h.2.1 h.2.2
  | cascade =>
    refine (honest_cascade junk ratio).congr (fun a b h => ⟨h.1.ok, h.2⟩) ?_
    intro a b h
    exact wrd_eq_warped ratio a b h.1.ok h.2.1 h.2.2

/-- C30: for any list of groups whose representatives denote the series `A`, any query and any dropout
(finite, infinite or NaN), `getBestGroup` returns the first group with the least representative
distance among those below the dropout, with that distance, or no group and the dropout; the groups are
unchanged up to cached envelopes. -/
theorem C30_best_group (junk : F Rounding.exact) (ratio : ℝ) {d dom W} (hd : LibDist junk ratio d dom W)
    (ds : Dataset (F Rounding.exact)) (ls : LocalSpace (F Rounding.exact)) (A : List (List ℝ))
    (hA : CentsOk ds ls.groups A) (q : List ℝ) (query : Series (F Rounding.exact)) (hq : SeriesOk query q)
    (hdom : ∀ a ∈ A, dom a q) (dropout : F Rounding.exact) :
    ∃ r gs query', ls.getBestGroup ds query d dropout = .ok (r, { ls with groups := gs }, query') ∧
      FirstBelow (A.map fun a => W a q) dropout r ∧
      SameUpTo ls.groups gs ∧ CentsOk ds gs A ∧ SeriesOk query' q := by
  obtain ⟨s, h1, h2, h3, h4⟩ := nearest_honest hd.honest hdom hA hq dropout
  refine ⟨(s.bestIdx, s.best), s.groups, s.query, ?_, h4, (nearest_shape _ _ _ _ _ _ h1).1, h2, h3⟩
  unfold LocalSpace.getBestGroup
  rw [h1]
  rfl

/-- A case: representatives `[0, 0]` and `[3, 4]` and query `[3, 4]`, any of the three distances. -/
example (junk : F Rounding.exact) {d dom W} (hd : LibDist junk 1 d dom W)
    (ds : Dataset (F Rounding.exact)) :
    let g (i : Int) (a : List ℝ) : Group (F Rounding.exact) :=
      { groupIndex := i, last := (-1, -1), memberLength := 2, subCount := 1, count := 0,
        centroid := { src := .own (fins a), cache := none } }
    let ls : LocalSpace (F Rounding.exact) := ⟨2, 1, [g 0 [0, 0], g 1 [3, 4]], []⟩
    ∃ r gs query', ls.getBestGroup ds (Series.mk' (fins [3, 4])) d F.pinf =
        .ok (r, { ls with groups := gs }, query') ∧
      FirstBelow (([[0, 0], [3, 4]] : List (List ℝ)).map fun a => W a [3, 4]) F.pinf r := by
  intro g ls
  have hc : CentsOk ds ls.groups [[0, 0], [3, 4]] := by
    refine ⟨rfl, ?_⟩
    intro k h1 h2
    have : k = 0 ∨ k = 1 := by simp only [List.length_cons, List.length_nil] at h2; omega
    rcases this with rfl | rfl
    · exact ⟨_, rfl, rfl, by intro c h; cases h⟩
    · exact ⟨_, rfl, rfl, by intro c h; cases h⟩
  obtain ⟨r, gs, q', h1, h2, _⟩ := C30_best_group junk 1 hd ds ls [[0, 0], [3, 4]] hc [3, 4] _ (seriesOk_mk _)
    (by
      intro a ha
      have hl : a.length = 2 := by
        simp only [List.mem_cons, List.not_mem_nil, or_false] at ha
        rcases ha with rfl | rfl <;> rfl
      cases hd with
      | euclidean => exact ⟨by simp [hl], by simp [hl]⟩
      | dtw => exact ⟨⟨by norm_num, by simp [hl]; norm_num⟩, by simp [hl], by simp⟩
      | cascade => exact ⟨⟨by norm_num, by simp [hl]; norm_num⟩, by simp [hl], by simp⟩) F.pinf
  exact ⟨r, gs, q', h1, h2⟩

/-- C31: in any state in which the members of a group can be listed and have real values,
if some member is at finite distance from the query, `getBestMatch` returns a member at
least distance, with that distance; among several, the one listed first. -/
theorem C31_group_best_match (junk : F Rounding.exact) (ratio : ℝ) {d dom W} (hd : LibDist junk ratio d dom W)
    (ds : Dataset (F Rounding.exact)) (g : Group (F Rounding.exact)) (mm : List Membership) (vs : List View)
    (hvs : g.getMembers ds mm = .ok vs) (sv : View → List ℝ)
    (hsv : ∀ v ∈ vs, ds.resolve v = .ok (fins (sv v))) (q : List ℝ) (query : Series (F Rounding.exact))
    (hq : SeriesOk query q) (hdom : ∀ v ∈ vs, dom q (sv v))
    (hfin : ∃ v ∈ vs, W q (sv v) ≠ F.pinf) :
    ∃ v ∈ vs, g.getBestMatch ds mm query d = .ok { ts := v, dist := W q (sv v) } ∧
      (∀ v' ∈ vs, le (W q (sv v)) (W q (sv v')) = true) ∧
      ∃ pre post, vs = pre ++ v :: post ∧ ∀ v' ∈ pre, lt (W q (sv v)) (W q (sv v')) = true := by
  obtain ⟨v, h1, h2, h3, h4, _⟩ := groupBestMatch_spec hd.honest.toFaithful hvs sv
    (fun v hv => ⟨hsv v hv, hdom v hv⟩) hq (Or.inr ⟨hd.honest, hfin⟩)
  refine ⟨v, h1, h2, ?_, (h4 hd.honest).2⟩
  intro v' hv'
  have := (h4 hd.honest).1 v' hv'
  rw [lt_iff] at this
  rw [le_iff]
  rcases hd.honest.val q (sv v) (hdom v h1) with e | ⟨x, _, e⟩
  · exact absurd e h3
  · rw [e] at this ⊢
    rcases hd.honest.val q (sv v') (hdom v' hv') with e' | ⟨y, _, e'⟩
    · rw [e']
      exact Or.inl trivial
    · rw [e'] at this ⊢
      exact (not_lt.mp this).lt_or_eq

/-- The same under every rounding, for the two warped distances: the answer is a member and the reported distance is
the distance computed without dropout, provided the newest member is at finite distance. -/
theorem C31_group_match_rounded (ρ : Rounding) (junk : F ρ) (ratio : ℝ) (d : Dist (F ρ))
    (hd : d = DistName.euclideanDtw.fn (F.fin ratio) ∨ d = cascadeDistance junk (F.fin ratio))
    (ds : Dataset (F ρ)) (g : Group (F ρ)) (mm : List Membership) (v₀ : View) (vs : List View)
    (hvs : g.getMembers ds mm = .ok (v₀ :: vs)) (sv : View → List ℝ)
    (hsv : ∀ v ∈ v₀ :: vs, ds.resolve v = .ok (fins (sv v))) (q : List ℝ) (query : Series (F ρ))
    (hq : SeriesOk query q) (hlen : 2 ≤ q.length)
    (hdom : ∀ v ∈ v₀ :: vs, 2 ≤ (sv v).length ∧ RatioOk ρ ratio (max q.length (sv v).length))
    (hfin : warpedDistance (F.fin ratio) (fins q) (fins (sv v₀)) F.pinf ≠ .ok (F.pinf : F ρ)) :
    ∃ v ∈ v₀ :: vs, ∃ D, g.getBestMatch ds mm query d = .ok { ts := v, dist := D } ∧ D ≠ F.pinf ∧
      warpedDistance (F.fin ratio) (fins q) (fins (sv v)) F.pinf = .ok D := by
  have hf : Faithful d (wrdDom ρ ratio) (wrd ρ ratio) := by
    rcases hd with rfl | rfl
    · exact faithful_dtw ratio
    · exact faithful_cascade junk ratio
  have hw : ∀ v ∈ v₀ :: vs, warpedDistance (F.fin ratio) (fins q) (fins (sv v)) F.pinf = .ok (wrd ρ ratio q (sv v)) :=
    fun v hv => warped_inf (hdom v hv).2 (by omega) (by have := (hdom v hv).1; omega)
  obtain ⟨v, h1, h2, h3, _⟩ := groupBestMatch_spec hf hvs sv
    (fun v hv => ⟨hsv v hv, (hdom v hv).2, hlen, (hdom v hv).1⟩) hq
    (Or.inl ⟨v₀, rfl, by
      intro e
      rw [hw v₀ (by simp), e] at hfin
      exact hfin rfl⟩)
  exact ⟨v, h1, _, h2, h3, hw v h1⟩

/-- A case: a group with the members (1, 0) and (0, 1) of length 2 of two series of length 3. -/
example (junk : F Rounding.exact) :
    let ds : Dataset (F Rounding.exact) := ⟨some (fins [1, 2, 3] ++ fins [5, 6, 7]), 0, 3, 2, "", false⟩
    let mm : List Membership := [⟨(0, 0), 0⟩, ⟨(-1, -1), 0⟩, ⟨(0, 1), 0⟩, ⟨(0, 0), 0⟩]
    let g : Group (F Rounding.exact) := ⟨0, (1, 0), 2, 2, 2, ⟨.own [], none⟩⟩
    let sv (v : View) : List ℝ := if v.index = 0 then [2, 3] else [5, 6]
    g.getMembers ds mm = .ok [subView ds 2 (1, 0), subView ds 2 (0, 1)] ∧
    (∀ v ∈ [subView ds 2 (1, 0), subView ds 2 (0, 1)], ds.resolve v = .ok (fins (sv v))) ∧
    ∃ v, g.getBestMatch ds mm (Series.mk' (fins [2, 4])) (cascadeDistance junk (F.fin 1)) = .ok v := by
  intro ds mm g sv
  have h1 : g.getMembers ds mm = .ok [subView ds 2 (1, 0), subView ds 2 (0, 1)] := rfl
  have h2 : ∀ v ∈ [subView ds 2 (1, 0), subView ds 2 (0, 1)], ds.resolve v = .ok (fins (sv v)) := by
    intro v hv
    simp only [List.mem_cons, List.not_mem_nil, or_false] at hv
    rcases hv with rfl | rfl <;> rfl
  refine ⟨h1, h2, ?_⟩
  have hl : ∀ v, (sv v).length = 2 := by
    intro v
    simp only [sv]
    split <;> rfl
  have hr : ∀ v, RatioFits 1 [2, 4] (sv v) := fun v => ⟨by norm_num, by rw [hl]; norm_num⟩
  obtain ⟨v, _, h, _⟩ := C31_group_best_match junk 1 .cascade ds g mm _ h1 sv h2 [2, 4] _ (seriesOk_mk _)
    (fun v _ => ⟨hr v, by simp, by rw [hl]⟩) ⟨subView ds 2 (1, 0), by simp, by
      rw [← wrd_eq_warped 1 _ _ (hr _).ok (by simp) (by rw [hl]), Ne,
        wrd_finite_iff _ _ _ (by simp) (by rw [hl]), hl]
      simp⟩
  exact ⟨_, h⟩

end Onex
