import Verif.Proofs.AskedAll
import Verif.Props.Api
import Verif.Props.Grouping
import Verif.Props.ApiMatch

/-!
# C54: a search does not affect later ones
-/

namespace Onex
open DataT Spec

variable {α : Type} [DataT α]

theorem loadGroups_ok {env : Env α} {file : Option Text} {s s' : GSet α} {n : Int}
    (h : s.loadGroups env file = (.ok n, s')) : s'.ds = s.ds ∧ ∃ st gs, s'.groups = some gs ∧
      (GlobalSpace.fresh : GlobalSpace α).loadGroups env.io s.ds st = (.ok n, gs) := by
  unfold GSet.loadGroups at h
  simp only at h
  repeat' split at h
  all_goals first | (simp at h; done) | skip
  simp only [GSet.reset, Prod.mk.injEq] at h
  obtain ⟨h1, rfl⟩ := h
  exact ⟨rfl, _, _, rfl, Prod.ext h1 rfl⟩

theorem made_rel {s : GSet α} (h : Made s) : Windows s.ds ∧ CRel s s := by
  cases h with
  | @grouped env s₀ _ L R name th n hR hL h =>
    obtain ⟨a1, a2, gs, dn, a3, a4, a5, a6⟩ := groupAllLengths_ok h
    have hw := holds_windows hR hL
    refine ⟨by rw [a1]; exact hw, rfl, ?_⟩
    rw [a3, a1]
    exact .some (grouped_rel hw a6)
  | @loaded env s₀ _ L R file n hR hL h hl =>
    obtain ⟨a1, st, gs, a3, a4⟩ := loadGroups_ok h
    have hw := holds_windows hR hL
    refine ⟨by rw [a1]; exact hw, rfl, ?_⟩
    rw [a3, a1]
    refine .some (forall₂_self fun o ho => ?_)
    cases o with
    | none => exact .none
    | some ls =>
      refine .some ⟨rfl, rfl, rfl, forall₂_self fun g hg => ?_⟩
      obtain ⟨i, hi, e⟩ := List.getElem_of_mem ho
      exact ((globalLoad_lfit a4 ls ho g hg).fit
        (hl i ls ⟨gs, a3, by rw [vget_nat hi, e]⟩ g hg)).rel

theorem step_ratio (env : Env α) (a : Api α) (c : Call α) (h : ∀ x, c ≠ .setRatio x) : (a.step env c).2.ratio = a.ratio := by
  have on_ratio : ∀ {β : Type} (i : Int) (f : GSet α → Eff (GSet α) β), (a.on i f).2.ratio = a.ratio := by
    intro β i f
    unfold Api.on
    split <;> rfl
  cases c with
  | load file path m sc seps =>
    simp only [Api.step, Api.loadDataset]
    repeat' split
    all_goals rfl
  | unload i =>
    simp only [Api.step, Api.unloadDataset]
    repeat' split
    all_goals rfl
  | unloadAll => rfl
  | normalize i => exact on_ratio i GSet.normalize
  | group i st => exact on_ratio _ _
  | loadGroup i f => exact on_ratio _ _
  | bestMatch r q i st e =>
    simp only [Api.step, match_eq]
    split
    · rfl
    · rfl
    · exact on_ratio _ _
  | paa i n =>
    simp only [Api.step, paa_eq]
    exact on_ratio _ _
  | save _ _ _ _ => rfl
  | info _ => rfl
  | allInfo => rfl
  | saveGroup _ _ _ => rfl
  | setRatio x => exact absurd rfl (h x)

omit [DataT α] in
theorem querySeries_mk {a : Api α} {r q i s e : Int} {x : Series α} (h : querySeries a r q i s e = .ok x) :
    ∃ vals, x = Series.mk' vals := by
  unfold querySeries at h
  obtain ⟨_, _, h⟩ := Res.bind_eq_ok.mp h
  obtain ⟨_, _, h⟩ := Res.bind_eq_ok.mp h
  obtain ⟨_, _, h⟩ := Res.bind_eq_ok.mp h
  obtain ⟨v, _, h⟩ := Res.bind_eq_ok.mp h
  cases h
  exact ⟨v, rfl⟩

theorem match_ds (env : Env α) (q : Series α) (s : GSet α) : (s.getBestMatch env q).2.ds = s.ds := by
  unfold GSet.getBestMatch
  split
  · rfl
  · split <;> rfl

/-- C54: the answer to a search, for any number type, any values and any outcome, is the same whatever calls were made
since the groups were made, as long as they left the two datasets as they were or only searched them: other searches
(of these datasets or others), loading, grouping, unloading of other datasets, changes of the band ratio. It is also
the same whatever uninitialised memory holds and whatever the clock says. -/
theorem C54_answer_unaffected (a a' : Api α) (r q : Int) (s qs : GSet α) (hr : dataset a r = some s) (hs : Made s)
    (hq : dataset a q = some qs) (hratio : BandNN a.ratio) (h : List (Env α × Call α)) (hrun : Api.run a h = some a')
    (hcalls : ∀ x ∈ h, OnlySearches x.2 r ∧ OnlySearches x.2 q ∧ ∀ y, x.2 = .setRatio y → BandNN y)
    (env env' : Env α) (index start stop : Int) :
    (a'.step env' (.bestMatch r q index start stop)).1 =
      ((a.setWarpingBandRatio a'.ratio).step env (.bestMatch r q index start stop)).1 := by
  obtain ⟨hw, h0⟩ := made_rel hs
  have inv : (∃ t, dataset a' r = some t ∧ CRel s t) ∧ (∃ u, dataset a' q = some u ∧ u.ds = qs.ds) ∧ BandNN a'.ratio := by
    refine run_inv (P := fun b => (∃ t, dataset b r = some t ∧ CRel s t) ∧
      (∃ u, dataset b q = some u ∧ u.ds = qs.ds) ∧ BandNN b.ratio) h a a' ?_ ⟨⟨s, hr, h0⟩, ⟨qs, hq, rfl⟩, hratio⟩ hrun
    rintro ⟨en, c⟩ hx b ⟨⟨t, hb, hst⟩, ⟨u, hu, hds⟩, hrat⟩
    obtain ⟨k1, k2, k3⟩ := hcalls _ hx
    simp only at k1 k2 k3 ⊢
    refine ⟨?_, ?_, ?_⟩
    · by_cases hc : mayChange c r
      · obtain ⟨q', i, st, e, rfl⟩ := k1 hc
        simp only [Api.step, match_eq]
        cases hqs : querySeries b r q' i st e with
        | throw x => exact ⟨t, hb, hst⟩
        | ub x => exact ⟨t, hb, hst⟩
        | ok x =>
          obtain ⟨vals, rfl⟩ := querySeries_mk hqs
          simp only [on_some hb]
          refine ⟨_, by rw [dataset_put (by simp [hb]), if_pos rfl], ?_⟩
          exact (hst.match_ hw (env := { en with ratio := b.ratio }) rfl hrat vals).2
      · rw [C43_others_unchanged en b c r hc (by simp [hb])]
        exact ⟨t, hb, hst⟩
    · by_cases hc : mayChange c q
      · obtain ⟨q', i, st, e, rfl⟩ := k2 hc
        simp only [Api.step, match_eq]
        cases hqs : querySeries b q q' i st e with
        | throw x => exact ⟨u, hu, hds⟩
        | ub x => exact ⟨u, hu, hds⟩
        | ok x =>
          simp only [on_some hu]
          refine ⟨_, by rw [dataset_put (by simp [hu]), if_pos rfl], ?_⟩
          rw [match_ds, hds]
      · rw [C43_others_unchanged en b c q hc (by simp [hu])]
        exact ⟨u, hu, hds⟩
    · by_cases hc : ∃ y, c = .setRatio y
      · obtain ⟨y, rfl⟩ := hc
        exact k3 y rfl
      · rw [step_ratio en b c (fun x hx => hc ⟨x, hx⟩)]
        exact hrat
  obtain ⟨⟨t, ht, hst⟩, ⟨u, hu, hds⟩, hrat⟩ := inv
  have hr' : dataset (a.setWarpingBandRatio a'.ratio) r = some s := hr
  have hq' : dataset (a.setWarpingBandRatio a'.ratio) q = some qs := hq
  have hqe : querySeries a' r q index start stop =
      querySeries (a.setWarpingBandRatio a'.ratio) r q index start stop := by
    unfold querySeries
    rw [get_eq, ht, get_eq, hu, get_eq, hr', get_eq, hq']
    simp only [Res.bind_ok, hds]
  simp only [Api.step, match_eq, hqe]
  cases hx : querySeries (a.setWarpingBandRatio a'.ratio) r q index start stop with
  | throw x => rfl
  | ub x => rfl
  | ok x =>
    obtain ⟨vals, rfl⟩ := querySeries_mk hx
    simp only [on_some ht, on_some hr']
    have := (hst.match_ hw (env := { env with ratio := a'.ratio }) (env' := { env' with ratio := a'.ratio }) rfl hrat vals).1
    simp only [this, Api.setWarpingBandRatio]

/-- The ratios that C54 allows include all real ones that are not negative, and those that are not finite. -/
theorem bandNN_F {ρ : Rounding} {ratio : F ρ} (h : ∀ x : ℝ, ratio = F.fin x → 0 ≤ x) : BandNN ratio := by
  intro n r hn e
  have hinf : ∀ (x : ℝ) (w : Int), ¬ floorInt (F.infSign x : F ρ) = some w := by
    intro x w hw
    unfold F.infSign at hw
    split at hw
    · cases hw
    · split at hw <;> cases hw
  unfold calculateWarpingBandSize at e
  split at e
  · rename_i w hw
    cases e
    have : 0 ≤ w := by
      cases ratio with
      | fin x =>
        change (if inIntRange ⌊ρ.f (((n : Int) : ℝ) * x)⌋ = true then some ⌊ρ.f (((n : Int) : ℝ) * x)⌋ else none) = _ at hw
        split at hw
        · cases hw
          exact Int.floor_nonneg.mpr (ρ.nonneg (mul_nonneg (by positivity) (h x rfl)))
        · cases hw
      | nan => cases hw
      | pinf => exact absurd hw (hinf _ _)
      | ninf => exact absurd hw (hinf _ _)
    omega
  · cases e

/-- A case: a dataset is grouped, searched twice with windows of its own rows, the ratio being changed in between;
then a third search gives the answer it would have given at first. -/
example (io : NumIO (F Rounding.exact)) (stod : Text → Stod (F Rounding.exact)) (st : ℝ) :
    let R : List (List ℝ) := [[0, 1, 2], [5, 5, 6]]
    let env : Env (F Rounding.exact) := ⟨F.fin 1, F.nan, io, stod, fun _ => false⟩
    let env' : Env (F Rounding.exact) := ⟨F.fin 1, F.fin 7, io, stod, fun _ => true⟩
    let s : GSet (F Rounding.exact) := ⟨⟨some (R.map fins).flatten, 0, 3, 2, "", false⟩, none, none⟩
    ∃ n s₁ a' c b', s.groupAllLengths env "euclidean" (F.fin st) = (.ok n, s₁) ∧
      Api.run (⟨[some s₁], 1, F.fin 1⟩ : Api (F Rounding.exact))
        [(env, .bestMatch 0 0 0 0 2), (env', .setRatio (F.fin (1 / 2))), (env, .bestMatch 0 0 1 0 3)] = some a' ∧
      a'.step env' (.bestMatch 0 0 0 1 3) = (.ok (.cand c), b') ∧
      ((⟨[some s₁], 1, F.fin (1 / 2)⟩ : Api (F Rounding.exact)).step env (.bestMatch 0 0 0 1 3)).1 = .ok (.cand c) := by
  intro R env env' s
  have hR : s.ds.Holds 3 (R.map fins) := by
    refine ⟨?_, rfl, rfl, [], by simp [s]⟩
    intro r hr
    simp only [R, List.map_cons, List.map_nil, List.mem_cons, List.not_mem_nil, or_false] at hr
    rcases hr with rfl | rfl <;> rfl
  have hfit : ∀ l ≤ 3, RatioOk Rounding.exact 1 l := ratioOk_of (by norm_num) (by norm_num)
  have hfit' : ∀ l ≤ 3, RatioOk Rounding.exact (1 / 2) l := ratioOk_of (by norm_num) (by norm_num)
  obtain ⟨n, s₁, h⟩ := C36_completes_partial env 1 rfl s 3 R hR hfit "euclidean" (Or.inl rfl) (F.fin st) (Or.inr fun _ => rfl)
  have h1 : Searched s 3 s₁ := .grouped ⟨rfl, hfit⟩ h
  have hne : R ≠ [] := by simp [R]
  obtain ⟨_, _, _, _, _, s₂, a₁, e1, d1, h2, -⟩ := C33_api_match ⟨[some s₁], 1, F.fin 1⟩ env 1 0 0 s s₁ s₁ 3 3 R R rfl rfl
    hR hne h1 (by rw [(searched_inv hR hne h1).1]; exact hR) rfl hfit 0 0 2 (by simp [R]) (by norm_num) (by norm_num)
    (by norm_num)
  obtain ⟨_, _, _, _, _, s₃, a₂, e2, d2, h3, -⟩ := C33_api_match (a₁.setWarpingBandRatio (F.fin (1 / 2))) env (1 / 2) 0 0 s
    s₂ s₂ 3 3 R R d1 d1 hR hne h2 (by rw [(searched_inv hR hne h2).1]; exact hR) rfl hfit' 1 0 3 (by simp [R])
    (by norm_num) (by norm_num) (by norm_num)
  have hrat : a₂.ratio = F.fin (1 / 2) := by
    have := step_ratio env (a₁.setWarpingBandRatio (F.fin (1 / 2))) (.bestMatch 0 0 1 0 3) (by simp)
    simp only [Nat.cast_one, Nat.cast_zero, Nat.cast_ofNat] at e2
    rw [e2] at this
    exact this
  obtain ⟨_, _, _, _, _, s₄, a₃, e3, -⟩ := C33_api_match a₂ env' (1 / 2) 0 0 s s₃ s₃ 3 3 R R d2 d2
    hR hne h3 (by rw [(searched_inv hR hne h3).1]; exact hR) hrat hfit' 0 1 3 (by simp [R]) (by norm_num) (by norm_num)
    (by norm_num)
  simp only [Nat.cast_one, Nat.cast_zero, Nat.cast_ofNat] at e1 e2 e3
  have hrun : Api.run (⟨[some s₁], 1, F.fin 1⟩ : Api (F Rounding.exact))
      [(env, .bestMatch 0 0 0 0 2), (env', .setRatio (F.fin (1 / 2))), (env, .bestMatch 0 0 1 0 3)] = some a₂ := by
    unfold Api.run
    rw [e1]
    unfold Api.run
    change Api.run (a₁.setWarpingBandRatio (F.fin (1 / 2))) _ = _
    unfold Api.run
    rw [e2]
    rfl
  refine ⟨n, s₁, a₂, _, a₃, h, hrun, e3, ?_⟩
  have key := C54_answer_unaffected ⟨[some s₁], 1, F.fin 1⟩ a₂ 0 0 s₁ s₁ rfl (.grouped hR (by norm_num) h) rfl
    (bandNN_F fun x hx => by cases hx; norm_num) _ hrun (by
      intro x hx
      simp only [List.mem_cons, List.not_mem_nil, or_false] at hx
      rcases hx with rfl | rfl | rfl
      · exact ⟨fun _ => ⟨_, _, _, _, rfl⟩, fun _ => ⟨_, _, _, _, rfl⟩, by simp⟩
      · refine ⟨fun h => h.elim, fun h => h.elim, ?_⟩
        intro y hy
        cases hy
        exact bandNN_F fun x hx => by cases hx; norm_num
      · exact ⟨fun _ => ⟨_, _, _, _, rfl⟩, fun _ => ⟨_, _, _, _, rfl⟩, by simp⟩) env env' 0 1 3
  rw [e3] at key
  simp only [Api.setWarpingBandRatio, hrat] at key
  exact key.symm

/-- Groups read from a file are among those C54 speaks of: one series of two numbers, one group. -/
example (stod : Text → Stod (F Rounding.exact)) :
    let io : NumIO (F Rounding.exact) := ⟨fun _ => [], fun _ => [], fun t => match t with
      | [] => none
      | _ :: t => some (F.fin 3, t)⟩
    let env : Env (F Rounding.exact) := ⟨F.fin 1, F.nan, io, stod, fun _ => false⟩
    let s : GSet (F Rounding.exact) := ⟨⟨some (fins [3, 3]), 0, 2, 1, "", false⟩, none, none⟩
    ∃ s', s.loadGroups env (some "1 3 1 2\n2 3\neuclidean\n1\n3 3 1 0 0 ".toList) = (.ok 1, s') ∧ Made s' := by
  intro io env s
  let g : Group (F Rounding.exact) := ⟨0, (0, 0), 2, 1, 1, ⟨.own (fins [3, 3]), none⟩⟩
  let ls : LocalSpace (F Rounding.exact) := ⟨2, 1, [g], [⟨(-1, -1), 0⟩]⟩
  let gs : GlobalSpace (F Rounding.exact) := ⟨[none, none, some ls], "euclidean"⟩
  have h : s.loadGroups env (some "1 3 1 2\n2 3\neuclidean\n1\n3 3 1 0 0 ".toList) =
      (.ok 1, ⟨s.ds, some gs, some (F.fin 3)⟩) := rfl
  refine ⟨_, h, .loaded (L := 2) (R := [fins [3, 3]]) ⟨by simp [fins], rfl, rfl, [], by simp [s]⟩ (by norm_num) h ?_⟩
  rintro l ls' ⟨gs', e, hv⟩ g' hg'
  cases e
  have := mem_of_vget hv
  simp only [gs, List.mem_cons, List.not_mem_nil, or_false, reduceCtorEq, false_or, Option.some.injEq] at this
  subst this
  simp only [ls, List.mem_singleton] at hg'
  subst hg'
  decide

end Onex
