import Verif.Props.Ucr
import Verif.Proofs.UcrLimits
import Verif.Proofs.UcrShort

/-!
# C67: where the UCR search is defined

`calculate32` is the search with its 32-bit `int` arithmetic checked; `Res.ok` means that it ended, divided by nothing that is zero, overflowed
nothing and read and wrote nothing outside its arrays. `o` is the order in which the library sorts the query: any permutation of
the indices.
-/

namespace Onex
open DataT Spec

variable {α : Type} [DataT α] {m r : ℕ}

/-- C67: for a query of three up to a hundred thousand values the search is defined exactly if the band is narrower than the query and
there are no more than `INT_MAX` data points, whatever the numbers, the rounding, the query file and the old contents of memory. -/
theorem C67_exactly (hm : 3 ≤ m) (hm' : m ≤ 100000) (junk : α) (data query : List α) {o : List ℕ} (ho : o.Perm (List.range m)) :
    (∃ y, calculate32 junk (o.map Int.ofNat) data query m r = .ok y) ↔ r < m ∧ data.length ≤ 2147483647 := by
  constructor
  · rintro ⟨y, h⟩
    have hr : r < m := by
      by_contra hc
      exact calculate32_wide junk _ data query (by omega) (by omega) y h
    obtain ⟨h1, h2⟩ := calculate32_ref (indices_perm ho) hm hm' hr y h
    obtain ⟨y', e, h3, _⟩ := calculate_def (N := 100000) (junk := junk) (data := data) (query := query) (indices_perm ho) hm hr hm' (by omega)
    obtain rfl : y = y' := by
      have e' : calculate junk (o.map Int.ofNat) data query m r = .ok y' := e
      rw [e', Res.ok.injEq] at h1
      exact h1.symm
    refine ⟨hr, ?_⟩
    rw [h3] at h2
    unfold inIntRange at h2
    simp only [decide_eq_true_eq] at h2
    omega
  · rintro ⟨hr, hd⟩
    rw [calculate32_eq (indices_perm ho) hm hm' hr hd]
    obtain ⟨y, e, _⟩ := calculate_def (N := 100000) (junk := junk) (data := data) (query := query) (indices_perm ho) hm hr hm' (by omega)
    exact ⟨y, e⟩

/-- C67: what a search that is defined returns: the number of points scanned, which is that of the data (`m - 1` for fewer), and
either the position of a window that lies within the data or 0 with the bound `1e20` it started with. -/
theorem C67_reports (hm : 3 ≤ m) (hm' : m ≤ 100000) (junk : α) (data query : List α) {o : List ℕ} (ho : o.Perm (List.range m)) (loc n : Int) (v : α)
    (h : calculate32 junk (o.map Int.ofNat) data query m r = .ok (loc, v, n)) :
    n = max (data.length : Int) (m - 1) ∧ (loc = 0 ∧ v = infTrillion ∨ 0 ≤ loc ∧ loc + m ≤ data.length) := by
  have hr := ((C67_exactly hm hm' junk data query ho).mp ⟨_, h⟩).1
  obtain ⟨h1, _⟩ := calculate32_ref (indices_perm ho) hm hm' hr _ h
  obtain ⟨y', e, h3⟩ := calculate_def (N := 100000) (junk := junk) (data := data) (query := query) (indices_perm ho) hm hr hm' (by omega)
  have e' : calculate junk (o.map Int.ofNat) data query m r = .ok y' := e
  rw [e', Res.ok.injEq] at h1
  rw [h1] at h3
  exact h3

/-- C67: up to `INT_MAX` points the 32-bit search is the search of C51 and C52. -/
theorem C67_same (hm : 3 ≤ m) (hm' : m ≤ 100000) (hr : r < m) (junk : α) (data query : List α) {o : List ℕ} (ho : o.Perm (List.range m))
    (hd : data.length ≤ 2147483647) :
    calculate32 junk (o.map Int.ofNat) data query m r = calculate junk (o.map Int.ofNat) data query m r :=
  calculate32_eq (indices_perm ho) hm hm' hr hd

/-- C67: a query of more than a hundred thousand values is longer than a chunk. The search is defined exactly if the band is narrower
than the query and the query is longer by one or the data fit a chunk; and then it has looked at no window at all. -/
theorem C67_long_query (hm : 100000 < m) (hr : r < m) (junk : α) (data query : List α) {o : List ℕ} (ho : o.Perm (List.range m)) :
    ((∃ y, calculate junk (o.map Int.ofNat) data query m r = .ok y) ↔ m = 100001 ∨ data.length ≤ 100000) ∧
    ∀ y, calculate junk (o.map Int.ofNat) data query m r = .ok y → y = (0, infTrillion, (m : Int) - 1) := by
  by_cases h : data.length ≤ 100000 ∨ m = 100001
  · have e : calculate junk (o.map Int.ofNat) data query m r = _ := calculate_long_ok (N := 100000) (junk := junk) (query := query) (indices_perm ho) hm hr h
    rw [e]
    refine ⟨⟨fun _ => h.symm, fun _ => ⟨_, rfl⟩⟩, fun y hy => ?_⟩
    rw [Res.ok.injEq] at hy
    exact hy.symm
  · have e : ∀ y, calculate junk (o.map Int.ofNat) data query m r ≠ .ok y := fun y => calculate_long_ub (N := 100000) (by omega) (by omega) y
    exact ⟨⟨fun ⟨y, hy⟩ => absurd hy (e y), fun h' => absurd h'.symm h⟩, fun y hy => absurd hy (e y)⟩

/-- C67: a query of one or two values, and data with a window to compare it to: never defined, for the first bound reads the third value
of the query. -/
theorem C67_short_query {data query : List ℝ} (hm1 : 1 ≤ m) (hm : m ≤ 2) (hq : m ≤ query.length) (hd : m ≤ data.length) (junk : Ex) {o : List ℕ}
    (ho : o.Perm (List.range m)) (y : Int × Ex × Int) : calculate junk (o.map Int.ofNat) (fins data) (fins query) m r ≠ .ok y := by
  by_cases hr : r < m
  · exact calculate_short_ub (N := 100000) hm1 hm hr (by omega) hq hd junk ho y
  · exact calculate_wide 100000 junk _ _ _ (by omega) (by omega) y

/-- C67: a query file that is too short. The search is defined (the old contents of memory are numbers) but what it answers depends
on them: for one window and a file of three values where four were asked for, the distance is 0 if the memory held a 0 and 4 if it
held a 1. -/
theorem C67_short_file_counterexample :
    calculate32 (F.fin 0 : Ex) ((List.range 4).map Int.ofNat) (fins [1, 1, 0, 0]) (fins [1, 1, 0]) (4 : ℕ) (0 : ℕ) = .ok (0, F.fin 0, 4) ∧
    calculate32 (F.fin 1 : Ex) ((List.range 4).map Int.ofNat) (fins [1, 1, 0, 0]) (fins [1, 1, 0]) (4 : ℕ) (0 : ℕ) = .ok (0, F.fin 4, 4) := by
  rw [C67_same (by omega) (by omega) (by omega) _ _ _ (List.Perm.refl _) (by simp), C67_same (by omega) (by omega) (by omega) _ _ _ (List.Perm.refl _) (by simp)]
  exact ⟨short_zero (N := 100000) (by omega) (by omega), short_one (N := 100000) (by omega) (by omega)⟩

/-- C52 fails here: with the same short file, in the model with unbounded ints too, the result depends on what the arrays held before. -/
theorem C52_short_file_counterexample :
    calculate (F.fin 0 : Ex) ((List.range 4).map Int.ofNat) (fins [1, 1, 0, 0]) (fins [1, 1, 0]) (4 : ℕ) (0 : ℕ) ≠
    calculate (F.fin 1 : Ex) ((List.range 4).map Int.ofNat) (fins [1, 1, 0, 0]) (fins [1, 1, 0]) (4 : ℕ) (0 : ℕ) := by
  obtain ⟨h0, h1⟩ := C67_short_file_counterexample
  rw [C67_same (by omega) (by omega) (by omega) _ _ _ (List.Perm.refl _) (by simp)] at h0 h1
  rw [h0, h1]
  simp

/-! ## Cases -/

/-- A query of three values in data of five, a band of two: defined, in floating point of any rounding and with infinities and NaN around. -/
example {ρ : Rounding} : ∃ y, calculate32 (F.pinf : F ρ) ([2, 0, 1].map Int.ofNat) [F.nan, F.fin 2, F.pinf, F.ninf, F.fin 1] [F.fin 1, F.nan] (3 : ℕ) (2 : ℕ) = .ok y :=
  (C67_exactly (m := 3) (r := 2) (by omega) (by omega) _ _ _ (o := [2, 0, 1]) (by decide)).mpr ⟨by omega, by simp⟩

/-- One point more than an `int` counts. -/
example {ρ : Rounding} (x : F ρ) : ¬ ∃ y, calculate32 x ([2, 0, 1].map Int.ofNat) (List.replicate 2147483648 x) [x, x, x] (3 : ℕ) (2 : ℕ) = .ok y := by
  rw [C67_exactly (m := 3) (r := 2) (by omega) (by omega) _ _ _ (o := [2, 0, 1]) (by decide), List.length_replicate]
  omega

/-- A query of 100001 values in data that contain it: nothing is found. -/
example (data query : List ℝ) : calculate (F.fin 0 : Ex) ((List.range 100001).map Int.ofNat) (fins data) (fins query) (100001 : ℕ) (5 : ℕ) =
    .ok (0, infTrillion, 100000) := by
  obtain ⟨h1, h2⟩ := C67_long_query (m := 100001) (r := 5) (by omega) (by omega) (F.fin 0 : Ex) (fins data) (fins query) (List.Perm.refl (List.range 100001))
  obtain ⟨y, hy⟩ := h1.mpr (Or.inl rfl)
  rw [hy, h2 y hy]
  rfl

/-- Two values. -/
example (y : Int × Ex × Int) : calculate (F.fin 0 : Ex) ([1, 0].map Int.ofNat) (fins [1, 2, 3]) (fins [4, 5]) (2 : ℕ) (0 : ℕ) ≠ .ok y :=
  C67_short_query (m := 2) (r := 0) (by omega) (by omega) (by simp) (by simp) _ (o := [1, 0]) (by decide) y

end Onex
