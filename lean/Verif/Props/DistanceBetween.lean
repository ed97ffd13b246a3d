import Verif.Props.Load
import Verif.Props.Pairwise
import Verif.Props.Warped
import Verif.Props.NonFinite
import Verif.Proofs.BestMatch

/-!
# C69: `distanceBetween` measures the distance it is asked for
-/

namespace Onex
open DataT Spec

variable {α : Type} [DataT α]

/-- C69: by the name "euclidean" it is the root mean square difference between the window asked for and the other series. -/
theorem C69_euclidean (ratio : (F Rounding.exact)) {ds : Dataset (F Rounding.exact)} {L : Nat} {R : List (List ℝ)} (h : ds.Holds L (R.map fins)) (i s : Nat) (y : List ℝ)
    (hi : i < R.length) (hy : 1 ≤ y.length) (hs : s + y.length ≤ L) :
    ds.distanceBetween ratio i s y.length (fins y) "euclidean" = .ok (F.fin (rms ((R[i].drop s).take y.length) y)) := by
  obtain ⟨v, h1, -, h3⟩ := C17_window_values h i s (s + y.length) (by simpa using hi) (by omega) hs
  have hlen : R[i].length = L := by simpa using h.rows (fins R[i]) (List.mem_map_of_mem (List.getElem_mem hi))
  rw [Nat.add_sub_cancel_left, List.getElem_map, fins_drop_take] at h3
  have e := C01_pairwise_is_rms ((R[i].drop s).take y.length) y (by simp [hlen]; omega) (by simp [hlen]; omega)
  unfold pd at e
  rw [← inf_F] at e
  push_cast at h1
  simp [Dataset.distanceBetween, getDistance, h1, h3, DistName.fn, Series.mk', e]

/-- C69: a series of another length is rejected by the Euclidean distance, for every number type. -/
theorem C69_euclidean_mismatch (ratio : α) {ds : Dataset α} {L : Nat} {R : List (List α)} (h : ds.Holds L R) (i s l : Nat) (y : List α)
    (hi : i < R.length) (hl : 1 ≤ l) (hs : s + l ≤ L) (hy : y.length ≠ l) :
    ∃ m : String, ds.distanceBetween ratio i s l y "euclidean" = .throw m := by
  obtain ⟨v, h1, -, h3⟩ := C17_window_values h i s (s + l) hi (by omega) hs
  have hlen := h.rows _ (List.getElem_mem hi)
  rw [Nat.add_sub_cancel_left] at h3
  have e := C01_pairwise_length_mismatch ((R[i].drop s).take l) y inf (by simp [hlen]; omega)
  push_cast at h1
  exact ⟨_, by simp [Dataset.distanceBetween, getDistance, h1, h3, DistName.fn, Series.mk', e]; rfl⟩

/-- C69: by the name "euclidean_dtw" it is the scaled root of the least cost of a warping path inside the band, and infinite just if no path
fits (the second half for two points and more, see C05). -/
theorem C69_warped (ratio : ℝ) {ds : Dataset (F Rounding.exact)} {L : Nat} {R : List (List ℝ)} (h : ds.Holds L (R.map fins)) (i s l : Nat) (y : List ℝ)
    (hi : i < R.length) (hl : 1 ≤ l) (hs : s + l ≤ L) (hy : 1 ≤ y.length) (h0 : 0 ≤ ratio) (hr : (max l y.length : ℕ) * ratio < 2147483648) :
    (∀ T, IsLeast (warpCosts (bandSize ratio (max l y.length)) ((R[i].drop s).take l) y) T →
      ds.distanceBetween (F.fin ratio) i s l (fins y) "euclidean_dtw" = .ok (F.fin (Real.sqrt T / (2 * max (l : ℝ) y.length)))) ∧
    (2 ≤ l → 2 ≤ y.length → (ds.distanceBetween (F.fin ratio) i s l (fins y) "euclidean_dtw" = .ok F.pinf ↔
      ¬ (warpCosts (bandSize ratio (max l y.length)) ((R[i].drop s).take l) y).Nonempty)) := by
  obtain ⟨v, h1, -, h3⟩ := C17_window_values h i s (s + l) (by simpa using hi) (by omega) hs
  have hlen : R[i].length = L := by simpa using h.rows (fins R[i]) (List.mem_map_of_mem (List.getElem_mem hi))
  rw [Nat.add_sub_cancel_left, List.getElem_map, fins_drop_take] at h3
  have hw : ((R[i].drop s).take l).length = l := by simp [hlen]; omega
  push_cast at h1
  have e : ds.distanceBetween (F.fin ratio) i s l (fins y) "euclidean_dtw" = wdist ratio ((R[i].drop s).take l) y F.pinf := by
    unfold wdist
    rw [← inf_F]
    simp only [Dataset.distanceBetween, getDistance, String.reduceEq, if_false, if_true, h1, h3, DistName.fn, Series.mk', Res.bind_ok]
    cases warpedDistance (F.fin ratio) (fins ((R[i].drop s).take l)) (fins y) (inf : (F Rounding.exact)) <;> rfl
  have hfit : RatioFits ratio ((R[i].drop s).take l) y := ⟨h0, by rw [hw]; exact hr⟩
  rw [e]
  generalize (R[i].drop s).take l = x at hw hfit ⊢
  subst hw
  refine ⟨fun T hT => ?_, fun h2 h2' => ?_⟩
  · have hband : x.length ≤ y.length + band ratio x y ∧ y.length ≤ x.length + band ratio x y := by
      obtain ⟨p, hp, -⟩ := hT.1
      have hb := hp.band _ (List.mem_of_getLast? hp.last)
      dsimp only at hb
      constructor <;> (unfold band; omega)
    obtain ⟨T', hT', e'⟩ := C04_warped_is_optimum ratio x y hfit hl hy hband
    rw [e', hT.unique hT']
  · exact ((C05_warped_infinite_partial ratio x y hfit hl hy).2 (.inl ⟨h2, h2'⟩)).2

/-- C69: an unknown name, an index that is not of a series and a window that does not lie in the series are rejected, for every number
type, unless start and end are both negative. -/
theorem C69_rejected_partial (ratio : α) (ds : Dataset α) (i s l : Int) (y : List α) (name : String)
    (h : (name ≠ "euclidean" ∧ name ≠ "euclidean_dtw") ∨ ¬ (0 ≤ i ∧ i < ds.itemCount) ∨
      (¬ (0 ≤ s ∧ 0 < l ∧ s + l ≤ ds.itemLength) ∧ ¬ (s < 0 ∧ s + l < 0))) :
    ∃ m : String, ds.distanceBetween ratio i s l y name = .throw m := by
  by_cases hn : name ≠ "euclidean" ∧ name ≠ "euclidean_dtw"
  · exact ⟨_, by simp [Dataset.distanceBetween, getDistance, hn.1, hn.2]; rfl⟩
  obtain ⟨d, hd⟩ : ∃ d, getDistance name = .ok d := by
    unfold getDistance
    by_cases h1 : name = "euclidean"
    · exact ⟨_, if_pos h1⟩
    · have h2 : name = "euclidean_dtw" := by
        by_contra h2
        exact hn ⟨h1, h2⟩
      exact ⟨_, by rw [if_neg h1, if_pos h2]⟩
  obtain ⟨m, hm⟩ := (C17_throws_iff ds i s (s + l)).mpr (by
    rcases h.resolve_left hn with h | ⟨h, h'⟩
    · exact fun x => h x.1
    · rintro ⟨-, x | x⟩
      · exact h' x
      · exact h ⟨x.1, by omega, x.2.2⟩)
  exact ⟨m, by simp only [Dataset.distanceBetween, hd, hm, Res.bind_ok]; rfl⟩

/-- C69: no arguments at all make it undefined, for every number type, as long as the band of the lengths that occur is defined (C14) and
the other series is not empty. -/
theorem C69_never_undefined (ratio : α) {ds : Dataset α} {L : Nat} {R : List (List α)} (h : ds.Holds L R) (hL : 1 ≤ L) (y : List α)
    (hy : 1 ≤ y.length) (hband : ∀ n ≤ max L y.length, ∃ r : Nat, calculateWarpingBandSize ratio (n : Int) = .ok (r : Int)) (i s l : Int)
    (name : String) : ¬ (ds.distanceBetween ratio i s l y name).IsUb := by
  by_cases hn : name ≠ "euclidean" ∧ name ≠ "euclidean_dtw"
  · obtain ⟨m, hm⟩ := C69_rejected_partial ratio ds i s l y name (.inl hn)
    rw [hm]
    exact id
  by_cases hi : 0 ≤ i ∧ i < ds.itemCount
  swap
  · obtain ⟨m, hm⟩ := C69_rejected_partial ratio ds i s l y name (.inr (.inl hi))
    rw [hm]
    exact id
  by_cases hw : ¬ (0 ≤ s ∧ 0 < l ∧ s + l ≤ ds.itemLength) ∧ ¬ (s < 0 ∧ s + l < 0)
  · obtain ⟨m, hm⟩ := C69_rejected_partial ratio ds i s l y name (.inr (.inr hw))
    rw [hm]
    exact id
  rw [h.itemCount] at hi
  rw [h.itemLength] at hw
  obtain ⟨v, x, h1, h3, hx1, hx2⟩ : ∃ v x, ds.getTimeSeries i s (s + l) = .ok v ∧ ds.resolve v = .ok x ∧ 1 ≤ x.length ∧ x.length ≤ L := by
    lift i to ℕ using hi.1
    have hi' : i < R.length := by omega
    have hrow := h.rows _ (List.getElem_mem hi')
    by_cases hneg : s < 0 ∧ s + l < 0
    · obtain ⟨v, h1, -, h3⟩ := C17_whole_row h i hi' s (s + l) hneg.1 hneg.2
      exact ⟨v, _, h1, h3, by omega, by omega⟩
    · have hpos : 0 ≤ s ∧ 0 < l ∧ s + l ≤ L := by
        by_contra hc
        exact hw ⟨hc, hneg⟩
      lift s to ℕ using hpos.1
      lift l to ℕ using hpos.2.1.le
      obtain ⟨v, h1, -, h3⟩ := C17_window_values h i s (s + l) hi' (by omega) (by omega)
      have hlen : ((R[i].drop s).take (s + l - s)).length = l := by
        rw [List.length_take, List.length_drop, hrow]
        omega
      exact ⟨v, _, by exact_mod_cast h1, h3, by omega, by omega⟩
  obtain ⟨r, hr⟩ := hband (max x.length y.length) (by omega)
  obtain ⟨⟨w, hw⟩, -, he⟩ := C53_distances_defined zero ratio (Series.mk' x) (Series.mk' y) x.length y.length r hx1 hy (whole_mk x) (whole_mk y) hr inf
  simp only [Series.mk'] at hw he
  by_cases hname : name = "euclidean"
  · by_cases hlen : x.length = y.length
    · obtain ⟨z, hz⟩ := he hlen
      simp [Dataset.distanceBetween, getDistance, hname, h1, h3, DistName.fn, Series.mk', hz, Res.IsUb]
    · have hz := C01_pairwise_length_mismatch x y inf hlen
      simp [Dataset.distanceBetween, getDistance, hname, h1, h3, DistName.fn, Series.mk', hz, Res.IsUb]
  · have hname' : name = "euclidean_dtw" := by
      by_contra hc
      exact hn ⟨hname, hc⟩
    simp [Dataset.distanceBetween, getDistance, hname', h1, h3, DistName.fn, Series.mk', hw, Res.IsUb]

/-- C69 fails here: with a negative start and a window that also ends before the first value, the whole series is compared. -/
theorem C69_negative_counterexample (ratio : (F Rounding.exact)) {ds : Dataset (F Rounding.exact)} {L : Nat} {R : List (List ℝ)} (h : ds.Holds L (R.map fins)) (i : Nat)
    (hi : i < R.length) (s l : Int) (hs : s < 0) (hl : s + l < 0) (y : List ℝ) (hy : y.length = L) (hL : 1 ≤ L) :
    ds.distanceBetween ratio i s l (fins y) "euclidean" = .ok (F.fin (rms R[i] y)) := by
  obtain ⟨v, h1, -, h3⟩ := C17_whole_row h i (by simpa using hi) s (s + l) hs hl
  have hlen : R[i].length = L := by simpa using h.rows (fins R[i]) (List.mem_map_of_mem (List.getElem_mem hi))
  rw [List.getElem_map] at h3
  have e := C01_pairwise_is_rms R[i] y (by omega) (by omega)
  unfold pd at e
  rw [← inf_F] at e
  simp [Dataset.distanceBetween, getDistance, h1, h3, DistName.fn, Series.mk', e]

/-- Such a dataset and series: the window `2 3` of `1 2 3 4` and the series `5 7`. -/
example : (⟨some (fins [1, 2, 3, 4, 0, 0, 0, 0]), 0, 4, 2, "", false⟩ : Dataset (F Rounding.exact)).Holds 4 ([[1, 2, 3, 4], [0, 0, 0, 0]].map fins) ∧
    (0 < [[(1 : ℝ), 2, 3, 4], [0, 0, 0, 0]].length) ∧ 1 ≤ [(5 : ℝ), 7].length ∧ 1 + [(5 : ℝ), 7].length ≤ 4 ∧
    (([(1 : ℝ), 2, 3, 4].drop 1).take 2) = [2, 3] ∧ (max 2 [(5 : ℝ), 7].length : ℕ) * (1 / 2 : ℝ) < 2147483648 :=
  ⟨⟨by simp [fins], rfl, rfl, [], by simp [fins]⟩, by simp, by simp, by simp, by simp, by norm_num⟩

end Onex
