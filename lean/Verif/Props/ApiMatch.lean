import Verif.Props.Api
import Verif.Props.Match
import Verif.Props.Load

/-!
# Property C33 at the level of `OnexAPI`
-/

namespace Onex
open Spec

variable {ρ : Rounding}

/-- C33, for the call `getBestMatch(result, query, index, start, end)` of the API and every rounding: if the result id
is bound to a searched dataset and the query id to a dataset of real numbers, the call answers with a sub-series of
the result dataset and its warped distance to the values `start .. end-1` of row `index` of the query dataset. The
result dataset is again searched, and all other datasets are unchanged. -/
theorem C33_api_match (a : Api (F ρ)) (env : Env (F ρ)) (ratio : ℝ) (r q : Int) (s₀ s qs : GSet (F ρ)) (L M : Nat)
    (R Q : List (List ℝ)) (hr : dataset a r = some s) (hq : dataset a q = some qs)
    (hR : s₀.ds.Holds L (R.map fins)) (hne : R ≠ []) (hs : Searched s₀ L s) (hQ : qs.ds.Holds M (Q.map fins))
    (hratio : a.ratio = F.fin ratio) (hfit : ∀ l ≤ L, RatioOk ρ ratio l)
    (index start stop : Nat) (hi : index < Q.length) (h2 : start + 2 ≤ stop) (hM : stop ≤ M) (hL : stop - start ≤ L) :
    ∃ (i b l : Nat) (x : ℝ) (v : View) (s' : GSet (F ρ)) (a' : Api (F ρ)),
      a.step env (.bestMatch r q index start stop) = (.ok (.cand { ts := v, dist := F.fin x }), a') ∧
      dataset a' r = some s' ∧ Searched s₀ L s' ∧ (∀ j, j ≠ r → dataset a' j = dataset a j) ∧
      i < R.length ∧ 2 ≤ l ∧ b + l ≤ L ∧ v.index = i ∧ v.start = b ∧ v.stop = b + l ∧
      SubValues s.ds v (((R.getD i []).drop b).take l) ∧
      warpedDistance (F.fin ratio) (fins ((Q[index].drop start).take (stop - start)))
        (fins (((R.getD i []).drop b).take l)) F.pinf = .ok (F.fin x : F ρ) := by
  have hrow : Q[index].length = M := by
    have := hQ.rows (fins Q[index]) (List.mem_map_of_mem (List.getElem_mem hi))
    simpa [fins] using this
  have hlen : ((Q[index].drop start).take (stop - start)).length = stop - start := by
    simp [hrow]
    omega
  obtain ⟨v₀, hv, -, hres⟩ := C17_window_values hQ index start stop (by simpa using hi) (by omega) hM
  have hwin : (((Q.map fins)[index]'(by simpa using hi)).drop start).take (stop - start) =
      (fins ((Q[index].drop start).take (stop - start)) : List (F ρ)) := by
    simp [fins, List.map_drop, List.map_take]
  rw [hwin] at hres
  have hquery : querySeries a r q index start stop =
      .ok (Series.mk' (fins ((Q[index].drop start).take (stop - start)))) := by
    unfold querySeries
    rw [get_eq, hr, get_eq, hq]
    simp only [Res.bind_ok, hv, hres]
    rfl
  obtain ⟨i, b, l, x, v, s', e, hs', -, rest⟩ := C33_match_is_real s₀ s L R hR hne hs { env with ratio := a.ratio } ratio
    ⟨hratio, hfit⟩ _ _ (seriesOk_mk ((Q[index].drop start).take (stop - start))) (by omega) (by omega)
  refine ⟨i, b, l, x, v, s', a.put r s', ?_, ?_, hs', ?_, rest⟩
  · simp only [Api.step, match_eq, hquery, on_some hr, e]
    rfl
  · rw [dataset_put (by simp [hr]), if_pos rfl]
  · intro j hj
    rw [dataset_put (by simp [hr]), if_neg hj]

/-- A case: one dataset, grouped, searched with a window of its own first row. -/
example (io : NumIO (F Rounding.exact)) (stod : Text → Stod (F Rounding.exact)) (st : ℝ) :
    let R : List (List ℝ) := [[0, 1, 2], [5, 5, 6]]
    let env : Env (F Rounding.exact) := ⟨F.fin 1, F.nan, io, stod, fun _ => false⟩
    let s : GSet (F Rounding.exact) := ⟨⟨some (R.map fins).flatten, 0, 3, 2, "", false⟩, none, none⟩
    ∃ n s₁, s.groupAllLengths env "euclidean" (F.fin st) = (.ok n, s₁) ∧
      ∃ c a', (⟨[some s₁], 1, F.fin 1⟩ : Api (F Rounding.exact)).step env (.bestMatch 0 0 0 0 2) = (.ok (.cand c), a') := by
  intro R env s
  have hR : s.ds.Holds 3 (R.map fins) := by
    refine ⟨?_, rfl, rfl, [], by simp [s]⟩
    intro r hr
    simp only [R, List.map_cons, List.map_nil, List.mem_cons, List.not_mem_nil, or_false] at hr
    rcases hr with rfl | rfl <;> rfl
  have hfit : ∀ l ≤ 3, RatioOk Rounding.exact 1 l := ratioOk_of (by norm_num) (by norm_num)
  obtain ⟨n, s₁, h⟩ := C36_completes_partial env 1 rfl s 3 R hR hfit "euclidean" (Or.inl rfl) (F.fin st) (Or.inr fun _ => rfl)
  have h1 : Searched s 3 s₁ := .grouped ⟨rfl, hfit⟩ h
  have hne : R ≠ [] := by simp [R]
  have hds : s₁.ds = s.ds := (searched_inv hR hne h1).1
  obtain ⟨_, _, _, _, _, _, a', e, _⟩ := C33_api_match ⟨[some s₁], 1, F.fin 1⟩ env 1 0 0 s s₁ s₁ 3 3 R R rfl rfl hR hne h1
    (by rw [hds]; exact hR) rfl hfit 0 0 2 (by simp [R]) (by norm_num) (by norm_num) (by norm_num)
  exact ⟨n, s₁, h, _, a', e⟩

end Onex
