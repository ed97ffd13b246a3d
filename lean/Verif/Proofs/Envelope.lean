import Verif.Proofs.Lemire
import Verif.Proofs.Flt
import Verif.Spec.Envelope
import Verif.Model.Series

/-!
# The envelope of a real-valued series
-/

namespace Onex

open Spec

variable {ρ : Rounding}

/-- The real number in a value. -/
def F.toReal : F ρ → ℝ
  | .fin x => x
  | _ => 0

theorem ordOk_fins (x : List ℝ) : OrdOk (fins x : List (F ρ)) (fun i => x.getD i 0) := by
  intro i j hi hj
  simp only [fins_length] at hi hj
  apply decides_of_iff
  simp [fins, hi, hj]

theorem fins_toReal {u : List (F ρ)} (h : ∀ q : ℕ, q < u.length → ∃ y, u[q]? = some (F.fin y)) :
    u = fins (u.map F.toReal) := by
  apply List.ext_getElem
  · simp
  · intro q h1 h2
    obtain ⟨y, hy⟩ := h q h1
    have : u[q] = F.fin y := by
      rw [List.getElem?_eq_getElem h1] at hy
      exact Option.some.inj hy
    simp [fins, this, F.toReal]

theorem window_clamp (x : List ℝ) (w i : ℕ) (hi : i < x.length) :
    window x (min w (x.length - 1)) i = window x w i := by
  ext y
  constructor
  · rintro ⟨j, h1, h2, h3⟩
    exact ⟨j, h1, by omega, by omega⟩
  · rintro ⟨j, h1, h2, h3⟩
    have := (List.getElem?_eq_some_iff.mp h1).1
    exact ⟨j, h1, by omega, by omega⟩

/-- `lower_upper_lemire` computes the envelope if the width is below the length. -/
theorem lemire_env (x : List ℝ) {r : ℕ} (hr : r + 1 ≤ x.length) {l0 u0 : List (F ρ)} (hl0 : l0.length = x.length)
    (hu0 : u0.length = x.length) :
    ∃ lo up : List ℝ, lowerUpperLemire (fins x) (len (fins x : List (F ρ))) (r : Int) l0 u0 = .ok (fins lo, fins up) ∧
      IsEnvelope x lo up r := by
  obtain ⟨⟨l, u⟩, h1, hl, hu⟩ := lemire_spec (ordOk_fins (ρ := ρ) x) (r := r) (l0 := l0) (u0 := u0)
    (by rw [fins_length]; omega) (by simpa using hl0) (by simpa using hu0)
  obtain ⟨hl1, hl2⟩ := hl
  obtain ⟨hu1, hu2⟩ := hu
  simp only [fins_length] at hl1 hl2 hu1 hu2
  have getx : ∀ j (hj : j < (fins x : List (F ρ)).length), (fins x : List (F ρ))[j] = F.fin (x.getD j 0) := by
    intro j hj
    simp only [fins_length] at hj
    simp [fins, hj]
  have el : l = fins (l.map F.toReal) := by
    apply fins_toReal
    intro q hq
    rw [hl1] at hq
    obtain ⟨j, hj, _, _, h, _⟩ := hl2 q hq hq
    exact ⟨_, by rw [h, getx j (by simpa using hj)]⟩
  have eu : u = fins (u.map F.toReal) := by
    apply fins_toReal
    intro q hq
    rw [hu1] at hq
    obtain ⟨j, hj, _, _, h, _⟩ := hu2 q hq hq
    exact ⟨_, by rw [h, getx j (by simpa using hj)]⟩
  refine ⟨l.map F.toReal, u.map F.toReal, by rw [← el, ← eu, h1], by simpa using hl1, by simpa using hu1, ?_, ?_⟩
  · intro i hi
    obtain ⟨j, hj, g1, g2, g3, g4⟩ := hl2 i hi hi
    rw [getx j (by simpa using hj)] at g3
    have hval : (l.map F.toReal).getD i 0 = x.getD j 0 := by
      simp [List.getD, g3, F.toReal]
    rw [hval]
    constructor
    · exact ⟨j, by simp [List.getD, List.getElem?_eq_getElem hj], g1, g2⟩
    · rintro y ⟨j', hj', g5, g6⟩
      obtain ⟨hlt, hy⟩ := List.getElem?_eq_some_iff.mp hj'
      have h := OrderDual.toDual_le_toDual.mp (g4 j' hlt g5 g6)
      have e : x.getD j' 0 = y := by simp [List.getD, hj']
      linarith
  · intro i hi
    obtain ⟨j, hj, g1, g2, g3, g4⟩ := hu2 i hi hi
    rw [getx j (by simpa using hj)] at g3
    have hval : (u.map F.toReal).getD i 0 = x.getD j 0 := by
      simp [List.getD, g3, F.toReal]
    rw [hval]
    constructor
    · exact ⟨j, by simp [List.getD, List.getElem?_eq_getElem hj], g1, g2⟩
    · rintro y ⟨j', hj', g5, g6⟩
      obtain ⟨hlt, hy⟩ := List.getElem?_eq_some_iff.mp hj'
      have h := g4 j' hlt g5 g6
      have e : x.getD j' 0 = y := by simp [List.getD, hj']
      linarith

/-- The envelope of any values: with a constant order the proof above still shows that nothing goes
wrong and that the outputs are values of the window. -/
theorem generateKeoghLU_any {α : Type} [DataT α] (t : List α) (junk : α) (hx : 1 ≤ t.length) (w : ℕ) :
    ∃ lo up : List α, generateKeoghLU junk t (w : Int) = .ok (lo, up) ∧
      lo.length = t.length ∧ up.length = t.length ∧
      ∀ i, i < t.length →
        (∃ j, ∃ hj : j < t.length, i ≤ j + w ∧ j ≤ i + w ∧ lo[i]? = some t[j]) ∧
        (∃ j, ∃ hj : j < t.length, i ≤ j + w ∧ j ≤ i + w ∧ up[i]? = some t[j]) := by
  unfold generateKeoghLU
  simp only
  have ew : min (w : Int) (len t - 1) = ((min w (t.length - 1) : ℕ) : Int) := by
    simp only [len]; omega
  rw [ew]
  obtain ⟨⟨l, u⟩, h1, ⟨hl1, hl2⟩, ⟨hu1, hu2⟩⟩ := lemire_spec (v := fun _ => (0 : ℕ)) (t := t)
    (fun i j hi hj => ⟨fun _ => le_refl _, fun _ => le_refl _⟩) (r := min w (t.length - 1))
    (l0 := List.replicate t.length junk) (u0 := List.replicate t.length junk)
    (by omega) (by simp) (by simp)
  refine ⟨l, u, h1, hl1, hu1, ?_⟩
  intro i hi
  obtain ⟨j, hj, a1, a2, a3, _⟩ := hl2 i hi hi
  obtain ⟨k, hk, b1, b2, b3, _⟩ := hu2 i hi hi
  exact ⟨⟨j, hj, by omega, by omega, a3⟩, ⟨k, hk, by omega, by omega, b3⟩⟩

theorem generateKeoghLU_spec (junk : F ρ) (x : List ℝ) (hx : 1 ≤ x.length) (w : ℕ) :
    ∃ lo up : List ℝ, generateKeoghLU junk (fins x) (w : Int) = .ok (fins lo, fins up) ∧
      IsEnvelope x lo up w := by
  unfold generateKeoghLU
  simp only
  have ew : min (w : Int) (len (fins x : List (F ρ)) - 1) = ((min w (x.length - 1) : ℕ) : Int) := by
    rw [len_fins]; simp only [len]; omega
  rw [ew]
  obtain ⟨lo, up, h1, h2⟩ := lemire_env (ρ := ρ) x (r := min w (x.length - 1))
    (l0 := List.replicate (fins x : List (F ρ)).length junk)
    (u0 := List.replicate (fins x : List (F ρ)).length junk)
    (by omega) (by simp) (by simp)
  refine ⟨lo, up, h1, h2.lenLo, h2.lenUp, ?_, ?_⟩
  · intro i hi
    rw [← window_clamp x w i hi]
    exact h2.low i hi
  · intro i hi
    rw [← window_clamp x w i hi]
    exact h2.upp i hi

/-- A series with real values `x` whose cached envelope, if any, is right. -/
structure SeriesOk (s : Series (F ρ)) (x : List ℝ) : Prop where
  vals : s.vals = fins x
  cache : ∀ c, s.cache = some c → ∃ (w : ℕ) (lo up : List ℝ), c.band = w ∧ c.lower = fins lo ∧
    c.upper = fins up ∧ IsEnvelope x lo up w

theorem seriesOk_mk (x : List ℝ) : SeriesOk (Series.mk' (fins x) : Series (F ρ)) x :=
  ⟨rfl, by intro c h; cases h⟩

theorem getKeogh_spec (junk : F ρ) {s : Series (F ρ)} {x : List ℝ} (hs : SeriesOk s x)
    (hx : 1 ≤ x.length) (w : ℕ) :
    ∃ (lo up : List ℝ) (s' : Series (F ρ)), getKeogh junk s (w : Int) = .ok ((fins lo, fins up), s') ∧
      SeriesOk s' x ∧ IsEnvelope x lo up w := by
  have fresh : ∃ (lo up : List ℝ) (s' : Series (F ρ)), (do
      let (l, u) ← generateKeoghLU junk s.vals (w : Int)
      return ((l, u), { s with cache := some { band := (w : Int), lower := l, upper := u } })) = Res.ok ((fins lo, fins up), s') ∧
      SeriesOk s' x ∧ IsEnvelope x lo up w := by
    rw [hs.vals]
    obtain ⟨lo, up, h1, h2⟩ := generateKeoghLU_spec junk x hx w
    rw [h1]
    refine ⟨lo, up, _, rfl, ⟨rfl, ?_⟩, h2⟩
    rintro c hc
    cases hc
    exact ⟨w, lo, up, rfl, rfl, rfl, h2⟩
  unfold getKeogh
  rcases hc : s.cache with _ | c
  · exact fresh
  · simp only
    by_cases hb : c.band = (w : Int)
    · rw [if_pos hb]
      obtain ⟨w', lo, up, h1, h2, h3, h4⟩ := hs.cache c hc
      have : w' = w := by omega
      subst this
      exact ⟨lo, up, s, by rw [h2, h3], hs, h4⟩
    · rw [if_neg hb]
      exact fresh

end Onex
