import Verif.Props.SeriesObj

/-!
# C13, C16: the resolved series used by the distance functions

The distance functions are modelled on `Series` (values and cache), series objects on `Store` (heap and objects).
Both contain a model of `operator[]` and of the envelope getters. Here the two are shown to agree, and the C13 and
C16 claims are made for `Series` as well.
-/

namespace Onex

open Store Spec

variable {α : Type} [DataT α]

omit [DataT α] in
/-- C16 for a resolved series: the access throws exactly if the index is out of range, else it gives that value. -/
theorem C16_value_access (vals : List α) (idx : Int) :
    (tsGet vals idx = .throw (.onex "Data point index is out of range") ↔ idx < 0 ∨ len vals ≤ idx) ∧
    (0 ≤ idx → idx < len vals → ∃ v, tsGet vals idx = .ok v ∧ vals[idx.toNat]? = some v) := by
  unfold tsGet
  constructor
  · constructor
    · intro h
      by_contra hn
      rw [if_neg hn] at h
      have hlt : idx.toNat < vals.length := by simp only [len] at hn; omega
      rw [vget_eq_ok.mpr ⟨by omega, List.getElem?_eq_getElem hlt⟩] at h
      cases h
    · intro h
      rw [if_pos h]
  · intro h0 h1
    rw [if_neg (by omega)]
    have hlt : idx.toNat < vals.length := by simp only [len] at h1; omega
    exact ⟨vals[idx.toNat], vget_eq_ok.mpr ⟨h0, List.getElem?_eq_getElem hlt⟩, List.getElem?_eq_getElem hlt⟩

omit [DataT α] in
/-- Reading through a series object is reading in the list of its values. -/
theorem C16_models_agree (s : Store α) (i : Nat) (vals : List α) (hv : s.values i = .ok vals) (idx : Int) :
    s.get i idx = tsGet vals idx := by
  unfold values at hv
  obtain ⟨o, ho, hv⟩ := Res.bind_eq_ok.mp hv
  unfold Store.get tsGet
  rw [ho]
  simp only [Res.bind_ok]
  unfold readRange at hv
  by_cases hn : o.length ≤ 0
  · rw [if_pos hn] at hv
    cases hv
    rw [if_pos (by omega), if_pos (by simp only [len, List.length_nil]; omega)]
  · rw [if_neg hn] at hv
    obtain ⟨c, hc, hv⟩ := Res.bind_eq_ok.mp hv
    split at hv
    · rename_i hb
      cases hv
      have hl : len (List.take o.length.toNat (List.drop (o.off + o.start).toNat c)) = o.length := by
        simp only [len, List.length_take, List.length_drop] at hb ⊢
        omega
      rw [hl]
      by_cases hidx : idx < 0 ∨ idx ≥ o.length
      · rw [if_pos hidx, if_pos hidx]
      · rw [if_neg hidx, if_neg hidx, hc]
        simp only [Res.bind_ok]
        simp only [len] at hb hl
        have hlt : (o.off + o.start + idx).toNat < c.length := by omega
        have e1 := List.getElem?_eq_getElem hlt
        rw [vget_eq_ok.mpr ⟨by omega, e1⟩, eq_comm, vget_eq_ok]
        refine ⟨by omega, ?_⟩
        rw [List.getElem?_take, if_pos (by omega), List.getElem?_drop, ← e1]
        congr 1
        omega
    · cases hv

/-- The envelope of a series object, and what is cached afterwards, is what the envelope getters give for its values
and its cache. -/
theorem C13_models_agree (junk : α) (s : Store α) (i : Nat) (o : Obj α) (hi : s.Live i o) (vals : List α)
    (hv : s.values i = .ok vals) (band : Int) :
    Store.keogh junk s i band = (do
      let (lu, t) ← getKeogh junk { vals := vals, cache := o.cache } band
      return (lu, s.setObj i (some { o with cache := t.cache }))) := by
  have hsame : s = s.setObj i (some o) := by
    unfold setObj
    obtain ⟨h1, h2⟩ := List.getElem?_eq_some_iff.mp hi
    rw [← h2, List.set_getElem_self]
  have fresh : s.keoghFresh junk i o band = (do
      let (l, u) ← generateKeoghLU junk vals band
      return ((l, u), s.setObj i (some { o with cache := some { band := band, lower := l, upper := u } }))) := by
    unfold keoghFresh
    rw [hv]
    rfl
  unfold Store.keogh getKeogh
  rw [obj_eq_ok.mpr hi]
  simp only [Res.bind_ok]
  rcases hc : o.cache with _ | c
  · simp only
    rw [fresh]
    cases generateKeoghLU junk vals band <;> rfl
  · simp only
    split
    · simp only [Res.bind_ok, Res.pure_eq]
      rw [show ({ o with cache := some c } : Obj α) = o by rw [← hc], ← hsame]
    · rw [fresh]
      cases generateKeoghLU junk vals band <;> rfl

/-- C13 for a resolved series: as long as the cached envelope, if there is one, is right, the envelope getters return the
envelope of the requested width, whatever width was asked for before, and leave a right cache. -/
theorem C13_series_envelope {ρ : Rounding} (junk : F ρ) {s : Series (F ρ)} {x : List ℝ} (hs : SeriesOk s x)
    (hx : 1 ≤ x.length) (w : ℕ) :
    ∃ (lo up : List ℝ) (s' : Series (F ρ)), getKeogh junk s (w : Int) = .ok ((fins lo, fins up), s') ∧
      SeriesOk s' x ∧ IsEnvelope x lo up w :=
  getKeogh_spec junk hs hx w

/-- Non-trivial case for the above: a series with the envelope of width 1 cached is asked for width 0. -/
example : ∃ (s : Series (F Rounding.exact)), SeriesOk s [3, 1, 2] ∧ s.cache ≠ none ∧
    ∃ lo up s', getKeogh (F.fin 0) s (0 : ℕ) = .ok ((fins lo, fins up), s') ∧ IsEnvelope [3, 1, 2] lo up 0 := by
  obtain ⟨lo, up, s, h1, h2, h3⟩ := C13_series_envelope (F.fin 0 : F Rounding.exact) (seriesOk_mk [3, 1, 2]) (by simp) 1
  refine ⟨s, h2, ?_, ?_⟩
  · intro hn
    unfold getKeogh at h1
    simp only [Series.mk'] at h1
    obtain ⟨lu, _, h1⟩ := Res.bind_eq_ok.mp h1
    have h4 := congrArg (fun r : Res ((List (F Rounding.exact) × List (F Rounding.exact)) × Series (F Rounding.exact)) =>
      match r with | .ok (_, s) => s.cache | _ => none) h1
    simp only [hn] at h4
    cases h4
  · obtain ⟨lo', up', s', g1, _, g3⟩ := C13_series_envelope (F.fin 0) h2 (by simp) 0
    exact ⟨lo', up', s', g1, g3⟩

/-- Non-trivial case for the two agreement theorems: a view of the middle of a buffer. -/
example : ∃ (s : Store Int) (o : Obj Int), s.Live 0 o ∧ s.values 0 = .ok [5, 6] ∧ s.get 0 1 = .ok 6 :=
  ⟨{ heap := [{ alive := true, cells := [4, 5, 6, 7] }],
     objs := [some { data := some 0, off := 0, owner := false, index := 0, start := 1, stop := 3, length := 2, cache := none }] },
   _, rfl, rfl, rfl⟩

end Onex
