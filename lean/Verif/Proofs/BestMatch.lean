import Verif.Proofs.Nearest
import Verif.Proofs.Chain
import Verif.Props.Load
import Verif.Spec.Grouping

/-!
# The scan over the members of one group
-/

namespace Onex
open DataT Spec

variable {ρ : Rounding}

/-- The code's warped distance is the specified one. -/
theorem wrd_eq_warped (ratio : ℝ) (a b : List ℝ)
    (hr : RatioOk Rounding.exact ratio (max a.length b.length)) (hm : 2 ≤ a.length) (hn : 2 ≤ b.length) :
    wrd Rounding.exact ratio a b = warped ratio a b := by
  have hfit : RatioFits ratio a b := ⟨hr.nonneg, hr.range⟩
  have hinf : wdist ratio a b F.pinf = .ok (wrd Rounding.exact ratio a b) :=
    warped_inf hr (by omega) (by omega)
  have h5 := ((C05_warped_infinite_partial ratio a b hfit (by omega) (by omega)).2 (Or.inl ⟨hm, hn⟩))
  unfold warped
  simp only
  by_cases hne : (warpCosts (bandSize ratio (max a.length b.length)) a b).Nonempty
  · rw [if_pos hne]
    have hband : a.length ≤ b.length + band ratio a b ∧ b.length ≤ a.length + band ratio a b := by
      by_contra hc
      exact (h5.2.mp (h5.1.mpr (by omega))) hne
    obtain ⟨T, hT, h4⟩ := C04_warped_is_optimum ratio a b hfit (by omega) (by omega) hband
    rw [hinf, Res.ok.injEq] at h4
    rw [h4, hT.csInf_eq]
  · rw [if_neg hne]
    have := h5.2.mpr hne
    rw [hinf, Res.ok.injEq] at this
    exact this

theorem fins_drop_take (x : List ℝ) (s k : Nat) :
    ((fins x : List (F ρ)).drop s).take k = fins ((x.drop s).take k) := by
  simp [fins, List.map_drop, List.map_take]

/-- A dataset that holds the reals `R`. -/
abbrev HoldsReal (ds : Dataset (F ρ)) (L : Nat) (R : List (List ℝ)) : Prop := ds.Holds L (R.map fins)

theorem HoldsReal.count {ds : Dataset (F ρ)} {L : Nat} {R : List (List ℝ)} (h : HoldsReal ds L R) :
    ds.itemCount = R.length := by
  rw [Dataset.Holds.itemCount h]
  simp

theorem HoldsReal.row {ds : Dataset (F ρ)} {L : Nat} {R : List (List ℝ)} (h : HoldsReal ds L R) :
    ∀ r ∈ R, r.length = L := by
  intro r hr
  have := Dataset.Holds.rows h (fins r) (List.mem_map_of_mem hr)
  simpa using this

/-- The values of a sub-series. -/
theorem resolve_sub {ds : Dataset (F ρ)} {L : Nat} {R : List (List ℝ)} (h : HoldsReal ds L R) {l : Int}
    (hl : 1 ≤ l) {c : Coord} (hc : IsSub ds.itemCount ds.itemLength l c) :
    ds.resolve (subView ds l c) = .ok (fins (subVals R l c)) ∧ (subVals R l c).length = l.toNat := by
  obtain ⟨i, s⟩ := c
  obtain ⟨⟨a1, a2⟩, a3, a4⟩ := hc
  simp only at a1 a2 a3 a4
  obtain ⟨i, rfl⟩ := Int.eq_ofNat_of_zero_le a1
  obtain ⟨s, rfl⟩ := Int.eq_ofNat_of_zero_le a3
  obtain ⟨l, rfl⟩ := Int.eq_ofNat_of_zero_le (by omega : 0 ≤ l)
  rw [HoldsReal.count h] at a2
  rw [h.itemLength] at a4
  have hi : i < R.length := by omega
  obtain ⟨v, h1, h2, h3⟩ := C17_window_values h i s (s + l) (by simpa using hi) (by omega) (by omega)
  have hg := getTimeSeries_sub (ds := ds) hl (c := ((i : Int), (s : Int)))
    ⟨⟨a1, by rw [HoldsReal.count h]; exact a2⟩, a3, by rw [h.itemLength]; exact a4⟩
  simp only at hg
  rw [show ((s : Int) + (l : Int)) = ((s + l : Nat) : Int) by push_cast; rfl, h1] at hg
  rw [Res.ok.injEq] at hg
  have hrow : (R[i]).length = L := HoldsReal.row h _ (List.getElem_mem hi)
  have hsv : subVals R (l : Int) ((i : Int), (s : Int)) = (R[i].drop s).take l := by
    unfold subVals
    simp [List.getD_eq_getElem?_getD, hi]
  constructor
  · rw [← hg, h3, hsv]
    simp only [List.getElem_map, fins_drop_take]
    congr 3
    omega
  · rw [hsv]
    simp only [List.length_take, List.length_drop, hrow, Int.toNat_natCast]
    omega

theorem lt_of_lt_not_lt {x y z : F ρ} (h : lt x y = true) (h' : ¬ lt z y = true) (hz : z ≠ F.nan) : lt x z = true := by
  rw [lt_iff] at *
  cases x <;> cases y <;> cases z <;> simp_all [F.Lt]
  linarith

/-- The scan over the members, in any state in which listing the members succeeds. -/
theorem bestMatchLoop_spec {d : Dist (F ρ)} {dom W} (hd : Faithful d dom W) {ds : Dataset (F ρ)}
    {mm : List Membership} {g : Group (F ρ)} {q : List ℝ} (sv : View → List ℝ) :
    ∀ (fuel : Nat) (cur : Coord) (vs : List View) (best : F ρ) (bestM : Coord) (query : Series (F ρ)),
      g.membersLoop ds mm fuel cur = .ok vs →
      (∀ v ∈ vs, ds.resolve v = .ok (fins (sv v)) ∧ dom q (sv v)) →
      SeriesOk query q →
      ∃ best' bestM' query', g.bestMatchLoop ds mm d fuel cur best bestM query = .ok (best', bestM', query') ∧
        SeriesOk query' q ∧
        ((best' = best ∧ bestM' = bestM ∧ (best = F.pinf → ∀ v, vs.head? = some v → W q (sv v) = F.pinf)) ∨
          ((∃ v ∈ vs, ds.getTimeSeries bestM'.1 bestM'.2 (bestM'.2 + g.memberLength) = .ok v ∧
            best' = W q (sv v)) ∧ lt best' best = true)) ∧
        (Honest d dom W → ∀ v ∈ vs, ¬ lt (W q (sv v)) best' = true) ∧
        (Honest d dom W → lt best' best = true → ∃ pre v post, vs = pre ++ v :: post ∧
          ds.getTimeSeries bestM'.1 bestM'.2 (bestM'.2 + g.memberLength) = .ok v ∧
          ∀ v' ∈ pre, lt best' (W q (sv v')) = true) ∧
        ∀ κ, NearHonest κ d dom W → ∀ v ∈ vs, ¬ lt (scl κ (W q (sv v))) best' = true := by
  intro fuel
  induction fuel with
  | zero =>
    intro cur vs best bestM query hvs _ hq
    unfold Group.membersLoop at hvs
    split at hvs
    · rename_i h
      cases hvs
      exact ⟨best, bestM, query, by simp [Group.bestMatchLoop, h], hq, Or.inl ⟨rfl, rfl, by simp⟩, by simp, by simp [lt_irrefl_F], by simp⟩
    · cases hvs
  | succ fuel ih =>
    intro cur vs best bestM query hvs hr hq
    unfold Group.membersLoop at hvs
    split at hvs
    · rename_i h
      cases hvs
      exact ⟨best, bestM, query, by simp [Group.bestMatchLoop, h], hq, Or.inl ⟨rfl, rfl, by simp⟩, by simp, by simp [lt_irrefl_F], by simp⟩
    · rename_i hc
      simp only at hvs
      obtain ⟨w, hw, hvs1⟩ := Res.bind_eq_ok.mp hvs
      obtain ⟨e, hget, hvs2⟩ := Res.bind_eq_ok.mp hvs1
      obtain ⟨rest, h, hvs3⟩ := Res.bind_eq_ok.mp hvs2
      simp only [Res.pure_eq, Res.ok.injEq] at hvs3
      subst hvs3
      obtain ⟨r1, r2⟩ := hr w (by simp)
      obtain ⟨v, query1, sb', k1, k2, _, k4, k5⟩ := hd.run q (sv w) query (Series.mk' (fins (sv w))) best r2 hq
        (seriesOk_mk _)
      have hW : W q (sv w) = F.pinf ∨ ∃ x, 0 ≤ x ∧ W q (sv w) = F.fin x := hd.val _ _ r2
      obtain ⟨best', bestM', query', e1, e2, e3, e4, e5, e6⟩ := ih e.prev rest (if lt v best = true then v else best)
        (if lt v best = true then cur else bestM) query1 h (fun c hc => hr c (by simp [hc])) k2
      have hv : lt v best = true → v = W q (sv w) := by
        intro hlt
        rcases k4 with h | h
        · exact h
        · rw [h] at hlt
          simp at hlt
      refine ⟨best', bestM', query', ?_, e2, ?_, ?_, ?_, ?_⟩
      · rw [← e1]
        conv_lhs => unfold Group.bestMatchLoop
        rw [if_neg hc]
        simp only
        rw [hw, Res.bind_ok, r1, Res.bind_ok, k1, Res.bind_ok]
        simp only
        rw [hget, Res.bind_ok]
        split <;> rfl
      · by_cases hlt : lt v best = true
        · rw [if_pos hlt, if_pos hlt] at e3
          right
          rcases e3 with ⟨h1, h2, _⟩ | ⟨⟨u, h1, h2⟩, h3⟩
          · subst h1 h2
            exact ⟨⟨w, by simp, hw, hv hlt⟩, hlt⟩
          · exact ⟨⟨u, by simp [h1], h2⟩, lt_trans_F h3 hlt⟩
        · rw [if_neg hlt, if_neg hlt] at e3
          rcases e3 with ⟨h1, h2, h3⟩ | ⟨⟨u, h1, h2⟩, h3⟩
          · refine Or.inl ⟨h1, h2, ?_⟩
            intro hb c hcur
            simp only [List.head?_cons, Option.some.injEq] at hcur
            subst hcur
            rcases hW with h | ⟨x, _, h⟩
            · exact h
            · exfalso
              apply hlt
              rw [k5 hb, h, hb]
              simp
          · exact Or.inr ⟨⟨u, by simp [h1], h2⟩, h3⟩
      · intro hh c hc'
        rcases List.mem_cons.mp hc' with rfl | hc'
        · intro hcon
          have hle : ∀ b : F ρ, (best' = b ∨ lt best' b = true) → lt (W q (sv c)) b = true := by
            rintro b (h | h)
            · rw [← h]; exact hcon
            · exact lt_trans_F hcon h
          have hb1 : best' = (if lt v best = true then v else best) ∨
              lt best' (if lt v best = true then v else best) = true := by
            rcases e3 with h | h
            · exact Or.inl h.1
            · exact Or.inr h.2
          by_cases hlt : lt v best = true
          · rw [if_pos hlt] at hb1
            have := hle _ hb1
            rw [hv hlt, lt_irrefl_F] at this
            exact absurd this (by simp)
          · rw [if_neg hlt] at hb1
            have h2 := hle _ hb1
            apply hlt
            rw [hh.below q (sv c) query _ best v _ _ r2 hq (seriesOk_mk _) k1 h2]
            exact h2
        · exact e4 hh c hc'
      · intro hh hbb
        by_cases hlt : lt v best = true
        · rw [if_pos hlt, if_pos hlt] at e3
          rw [if_pos hlt] at e5
          rcases e3 with ⟨h1, h2, _⟩ | ⟨_, h3⟩
          · exact ⟨[], w, rest, rfl, by rw [h2]; exact hw, by simp⟩
          · obtain ⟨pre, u, post, f1, f2, f3⟩ := e5 hh h3
            refine ⟨w :: pre, u, post, by rw [f1]; rfl, f2, ?_⟩
            intro v' hv'
            rcases List.mem_cons.mp hv' with rfl | hv'
            · rw [← hv hlt]
              exact h3
            · exact f3 v' hv'
        · rw [if_neg hlt] at e5
          obtain ⟨pre, u, post, f1, f2, f3⟩ := e5 hh hbb
          refine ⟨w :: pre, u, post, by rw [f1]; rfl, f2, ?_⟩
          intro v' hv'
          rcases List.mem_cons.mp hv' with rfl | hv'
          · have hn : ¬ lt (W q (sv v')) best = true := by
              intro h2
              apply hlt
              rw [hh.below q (sv v') query _ best v _ _ r2 hq (seriesOk_mk _) k1 h2]
              exact h2
            refine lt_of_lt_not_lt hbb hn ?_
            rcases hW with h | ⟨x, _, h⟩ <;> rw [h] <;> simp
          · exact f3 v' hv'
      · intro κ hn c hc'
        rcases List.mem_cons.mp hc' with rfl | hc'
        · have hb1 : ¬ lt (scl κ (W q (sv c))) (if lt v best = true then v else best) = true := by
            split
            · rename_i hlt
              rw [hv hlt]
              exact scl_not_lt hn.one hW (by simp [lt_irrefl_F])
            · rename_i hlt
              rcases hn.near q (sv c) query _ best v _ _ r2 hq (seriesOk_mk _) k1 with h | h
              · rw [h] at hlt
                exact scl_not_lt hn.one hW hlt
              · exact h
          rcases e3 with h | h
          · rw [h.1]
            exact hb1
          · exact fun h' => hb1 (lt_trans_F h' h.2)
        · exact e6 κ hn c hc'

/-- The best match in a group with at least one member at finite distance. -/
theorem groupBestMatch_spec {d : Dist (F ρ)} {dom W} (hd : Faithful d dom W) {ds : Dataset (F ρ)}
    {mm : List Membership} {g : Group (F ρ)} {vs : List View} (hvs : g.getMembers ds mm = .ok vs)
    {q : List ℝ} (sv : View → List ℝ)
    (hsv : ∀ v ∈ vs, ds.resolve v = .ok (fins (sv v)) ∧ dom q (sv v))
    {query : Series (F ρ)} (hq : SeriesOk query q)
    (hfin : (∃ v, vs.head? = some v ∧ W q (sv v) ≠ F.pinf) ∨
      (Honest d dom W ∧ ∃ v ∈ vs, W q (sv v) ≠ F.pinf)) :
    ∃ v ∈ vs, g.getBestMatch ds mm query d = .ok { ts := v, dist := W q (sv v) } ∧
      W q (sv v) ≠ F.pinf ∧
      (Honest d dom W → (∀ v' ∈ vs, ¬ lt (W q (sv v')) (W q (sv v)) = true) ∧
        ∃ pre post, vs = pre ++ v :: post ∧ ∀ v' ∈ pre, lt (W q (sv v)) (W q (sv v')) = true) ∧
      ∀ κ, NearHonest κ d dom W → ∀ v' ∈ vs, ¬ lt (scl κ (W q (sv v'))) (W q (sv v)) = true := by
  obtain ⟨best, bestM, query', h1, h2, h3, h4, h5, h6⟩ := bestMatchLoop_spec hd sv
    (mm.length + 1) g.last vs F.pinf (0, 0) query hvs hsv hq
  have h3' : (∃ v ∈ vs, ds.getTimeSeries bestM.1 bestM.2 (bestM.2 + g.memberLength) = .ok v ∧
      best = W q (sv v)) ∧ lt best F.pinf = true := by
    rcases h3 with ⟨hb, _, hall⟩ | h3
    · exfalso
      rcases hfin with ⟨c, hc1, hc2⟩ | ⟨hh, c, hc1, hc2⟩
      · exact hc2 (hall rfl c hc1)
      · apply h4 hh c hc1
        rw [hb]
        rcases hd.val q (sv c) (hsv c hc1).2 with e | ⟨x, _, e⟩
        · exact absurd e hc2
        · rw [e]
          simp
    · exact h3
  obtain ⟨⟨v, m0, m1, m2⟩, m3⟩ := h3'
  refine ⟨v, m0, ?_, ?_, ?_, by rw [← m2]; exact h6⟩
  · unfold Group.getBestMatch
    rw [inf_F, h1, Res.bind_ok]
    simp only
    rw [m1, Res.bind_ok, m2]
    rfl
  · rw [← m2]
    intro e
    rw [e] at m3
    simp at m3
  · intro hh
    rw [← m2]
    refine ⟨h4 hh, ?_⟩
    obtain ⟨pre, u, post, f1, f2, f3⟩ := h5 hh m3
    rw [m1] at f2
    cases f2
    exact ⟨pre, post, f1, f3⟩

end Onex
