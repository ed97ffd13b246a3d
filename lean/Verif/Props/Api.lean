import Verif.Proofs.Api

/-!
# Properties of the dataset table: C41, C42, C43, C44
-/

namespace Onex

open Spec

set_option linter.unusedSectionVars false

variable {α : Type} [DataT α]

theorem info_eq (a : Api α) (i : Int) :
    a.getDatasetInfo i = match dataset a i with
      | some s => .ok (Api.infoOf i s)
      | none => .throw "There is no dataset with given index" := by
  unfold Api.getDatasetInfo
  rw [get_eq]
  rcases dataset a i with _ | s <;> rfl

/-! ## One call -/

theorem path_normalize (s : GSet α) : s.normalize.2.ds.filePath = s.ds.filePath := by
  unfold GSet.normalize Dataset.normalize
  dsimp only
  split
  · rfl
  · split
    · rename_i h
      obtain ⟨b, _, h⟩ := Res.bind_eq_ok.mp h
      obtain ⟨x, _, h⟩ := Res.bind_eq_ok.mp h
      split at h
      · split at h
        · obtain ⟨y, _, h⟩ := Res.bind_eq_ok.mp h
          simp only [Res.pure_eq, Res.ok.injEq, Prod.mk.injEq] at h
          rw [← h.1]
        · simp only [Res.pure_eq, Res.bind_ok, Res.ok.injEq, Prod.mk.injEq] at h
          rw [← h.1]
      · obtain ⟨y, _, h⟩ := Res.bind_eq_ok.mp h
        simp only [Res.pure_eq, Res.ok.injEq, Prod.mk.injEq] at h
        rw [← h.1]
    · rfl
    · rfl

theorem path_paa (env : Env α) (n : Int) (s : GSet α) : (GSet.PAA env n s).2.ds.filePath = s.ds.filePath := by
  unfold GSet.PAA Dataset.PAA
  dsimp only
  split
  · rfl
  · split
    · rfl
    · split <;> rfl

theorem path_group (env : Env α) (name : String) (th : α) (s : GSet α) :
    (GSet.groupAllLengths env name th s).2.ds.filePath = s.ds.filePath := by
  unfold GSet.groupAllLengths
  split
  · rfl
  · dsimp only
    split <;> rfl

theorem path_loadGroups (env : Env α) (f : Option Text) (s : GSet α) :
    (GSet.loadGroups env f s).2.ds.filePath = s.ds.filePath := by
  unfold GSet.loadGroups
  split
  · rfl
  · dsimp only
    repeat' split
    all_goals rfl

theorem path_match (env : Env α) (q : Series α) (s : GSet α) :
    (GSet.getBestMatch env q s).2.ds.filePath = s.ds.filePath := by
  unfold GSet.getBestMatch
  split
  · rfl
  · split <;> rfl

/-- The query part of a search. -/
def querySeries (a : Api α) (r q i s e : Int) : Res (Series α) := do
  let _ ← a.get r
  let qs ← a.get q
  let v ← qs.ds.getTimeSeries i s e
  let vals ← qs.ds.resolve v
  return Series.mk' vals

theorem match_eq (env : Env α) (a : Api α) (r q i s e : Int) :
    a.getBestMatch env r q i s e = match querySeries a r q i s e with
      | .throw x => (.throw x, a)
      | .ub w => (.ub w, a)
      | .ok q => a.on r (GSet.getBestMatch { env with ratio := a.ratio } q) := rfl

theorem paa_eq (env : Env α) (a : Api α) (i n : Int) :
    (a.PAA env i n).2 = (a.on i (GSet.PAA env n)).2 := by
  unfold Api.PAA
  rcases a.on i (GSet.PAA env n) with ⟨_ | _ | _, _⟩ <;> rfl

theorem step_normalize (env : Env α) (a : Api α) (i : Int) :
    (a.step env (.normalize i)).2 = (a.on i GSet.normalize).2 := rfl

theorem step_group (env : Env α) (a : Api α) (i : Int) (st : α) : (a.step env (.group i st)).2 =
    (a.on i (GSet.groupAllLengths { env with ratio := a.ratio } "euclidean" st)).2 := rfl

theorem step_loadGroup (env : Env α) (a : Api α) (i : Int) (f : Option Text) : (a.step env (.loadGroup i f)).2 =
    (a.on i (GSet.loadGroups { env with ratio := a.ratio } f)).2 := rfl

theorem on_other {β : Type} {a : Api α} {i j : Int} (f : GSet α → Eff (GSet α) β) (h : j ≠ i) :
    dataset (a.on i f).2 j = dataset a j := by
  rcases hd : dataset a i with _ | s
  · rw [on_none hd]
  · rw [on_some hd, dataset_put (by simp [hd]), if_neg h]

theorem on_keeps {β : Type} {a : Api α} {i j : Int} {f : GSet α → Eff (GSet α) β}
    (hf : ∀ s, (f s).2.ds.filePath = s.ds.filePath) {s : GSet α} (h : dataset a j = some s) :
    ∃ s', dataset (a.on i f).2 j = some s' ∧ s'.ds.filePath = s.ds.filePath := by
  by_cases e : j = i
  · subst e
    rw [on_some h]
    refine ⟨(f s).2, ?_, hf s⟩
    rw [dataset_put (by simp [h]), if_pos rfl]
  · rw [on_other _ e]
    exact ⟨s, h, rfl⟩

/-- A call that does not unload the id keeps it bound to a dataset of the same file. -/
theorem step_keeps (env : Env α) (a : Api α) (c : Call α) (i : Int) (h1 : c ≠ .unload i) (h2 : c ≠ .unloadAll)
    {s : GSet α} (hs : dataset a i = some s) :
    ∃ s', dataset (a.step env c).2 i = some s' ∧ s'.ds.filePath = s.ds.filePath := by
  cases c with
  | load file path m sc seps =>
    simp only [Api.step]
    rcases hl : a.loadDataset env file path m sc seps with ⟨r, a'⟩
    rcases load_shape hl with ⟨_, e, _⟩ | ⟨id, g, hfree, _, _, hd, _⟩
    · exact ⟨s, by rw [e, hs], rfl⟩
    · refine ⟨s, ?_, rfl⟩
      change dataset a' i = _
      rw [hd, if_neg, hs]
      rintro rfl
      rw [hfree.2.1] at hs
      simp at hs
  | unload j =>
    have hne : i ≠ j := fun e => h1 (by rw [e])
    simp only [Api.step]
    by_cases hj : dataset a j = none
    · unfold Api.unloadDataset
      rw [get_none hj]
      exact ⟨s, hs, rfl⟩
    · exact ⟨s, by rw [(unload_shape hj).2.1, if_neg hne, hs], rfl⟩
  | unloadAll => exact absurd rfl h2
  | normalize j => exact step_normalize env a j ▸ on_keeps path_normalize hs
  | group j st => exact step_group env a j st ▸ on_keeps (path_group _ _ _) hs
  | loadGroup j f => exact step_loadGroup env a j f ▸ on_keeps (path_loadGroups _ _) hs
  | bestMatch r q j st e =>
    simp only [Api.step, match_eq]
    rcases querySeries a r q j st e with x | x | x
    · exact on_keeps (path_match _ _) hs
    · exact ⟨s, hs, rfl⟩
    · exact ⟨s, hs, rfl⟩
  | paa j n =>
    simp only [Api.step, paa_eq]
    exact on_keeps (path_paa _ _) hs
  | save _ _ _ _ => exact ⟨s, hs, rfl⟩
  | info _ => exact ⟨s, hs, rfl⟩
  | allInfo => exact ⟨s, hs, rfl⟩
  | saveGroup _ _ _ => exact ⟨s, hs, rfl⟩
  | setRatio _ => exact ⟨s, hs, rfl⟩

theorem step_counted (env : Env α) (a : Api α) (c : Call α) (h : Counted a) : Counted (a.step env c).2 := by
  cases c with
  | load file path m sc seps =>
    simp only [Api.step]
    rcases hl : a.loadDataset env file path m sc seps with ⟨r, a'⟩
    rcases load_shape hl with ⟨_, e, _⟩ | ⟨id, g, _, _, _, _, _, _, hc⟩
    · exact e ▸ h
    · exact hc h
  | unload j =>
    simp only [Api.step]
    by_cases hj : dataset a j = none
    · unfold Api.unloadDataset
      rw [get_none hj]
      exact h
    · exact (unload_shape hj).2.2.2.2 h
  | unloadAll => rfl
  | normalize j => exact step_normalize env a j ▸ h.on _ _
  | group j st => exact step_group env a j st ▸ h.on _ _
  | loadGroup j f => exact step_loadGroup env a j f ▸ h.on _ _
  | bestMatch r q j st e =>
    simp only [Api.step, match_eq]
    rcases querySeries a r q j st e with x | x | x
    · exact h.on _ _
    · exact h
    · exact h
  | paa j n =>
    simp only [Api.step, paa_eq]
    exact h.on _ _
  | save _ _ _ _ => exact h
  | info _ => exact h
  | allInfo => exact h
  | saveGroup _ _ _ => exact h
  | setRatio _ => exact h

theorem run_inv {P : Api α → Prop} : ∀ (h : List (Env α × Call α)) (a a' : Api α),
    (∀ x ∈ h, ∀ b, P b → P (b.step x.1 x.2).2) → P a → Api.run a h = some a' → P a'
  | [], a, a', _, h0, e => by
    simp only [Api.run, Option.some.injEq] at e
    exact e ▸ h0
  | (env, c) :: cs, a, a', hs, h0, e => by
    unfold Api.run at e
    have h1 := hs (env, c) (List.mem_cons_self ..) a h0
    rcases hst : a.step env c with ⟨r, b⟩
    simp only [hst] at h1 e
    rcases r with x | x | x
    · exact run_inv cs b a' (fun y hy => hs y (List.mem_cons_of_mem _ hy)) h1 e
    · exact run_inv cs b a' (fun y hy => hs y (List.mem_cons_of_mem _ hy)) h1 e
    · simp at e

theorem reachable_counted {a : Api α} (h : Reachable a) : Counted a := by
  obtain ⟨ratio, h, e⟩ := h
  exact run_inv h _ _ (fun x _ b hb => step_counted x.1 b x.2 hb) (rfl : Counted (Api.init ratio)) e

/-! ## C41 -/

/-- C41: after every history, `getDatasetCount` is the number of ids in use. -/
theorem C41_count (a : Api α) (h : Reachable a) (ids : List Int) (hids : IdsInUse a ids) :
    a.getDatasetCount = ids.length := by
  have h1 := usedIds_inUse a
  have hp : ids.Perm (usedIds a) := by
    refine (List.perm_ext_iff_of_nodup (hids.1.imp fun h => ne_of_lt h) (h1.1.imp fun h => ne_of_lt h)).mpr ?_
    intro i
    rw [hids.2, h1.2]
  rw [hp.length_eq, usedIds_length]
  exact reachable_counted h

/-- C41: a load that does not throw returns the least id not in use and binds it to the data of the file; nothing
else changes. -/
theorem C41_load (env : Env α) (a a' : Api α) (file : Option Text) (path : String) (m sc : Int) (seps : Text)
    (ans : Ans α) (h : a.step env (.load file path m sc seps) = (.ok ans, a')) :
    ∃ info g, ans = .info info ∧ LeastFree a info.id ∧
      (GSet.empty : GSet α).loadData env file path m sc seps = (.ok (), g) ∧ info.name = path ∧
      a'.getDatasetInfo info.id = .ok info ∧
      ∀ j, dataset a' j = if j = info.id then some g else dataset a j := by
  simp only [Api.step] at h
  rcases hl : a.loadDataset env file path m sc seps with ⟨r, b⟩
  rw [hl] at h
  simp only [Prod.mk.injEq] at h
  obtain ⟨h1, rfl⟩ := h
  rcases load_shape hl with ⟨hn, _⟩ | ⟨id, g, hfree, hg, hr, hd, _⟩
  · rcases r with x | x | x
    · exact absurd rfl (hn x)
    · simp [Res.map] at h1
    · simp [Res.map] at h1
  · subst hr
    simp only [Res.map, Res.ok.injEq] at h1
    refine ⟨Api.infoOf id g, g, h1.symm, hfree, hg, ?_, ?_, hd⟩
    · unfold GSet.loadData Dataset.loadData at hg
      dsimp only at hg
      split at hg
      · simp at hg
      · split at hg
        · simp at hg
        · simp at hg
        · simp only [Prod.mk.injEq, true_and] at hg
          rw [← hg]
          rfl
    · rw [info_eq]
      change (match dataset b id with | some s => _ | none => _) = _
      rw [hd, if_pos rfl]
      rfl

/-- C41: unloading an id in use frees it and leaves all others; unloading everything frees all. -/
theorem C41_unload (env : Env α) (a : Api α) (i : Int) (h : dataset a i ≠ none) :
    (a.step env (.unload i)).1 = .ok .unit ∧
    (∀ j, dataset (a.step env (.unload i)).2 j = if j = i then none else dataset a j) ∧
    ∀ j, dataset (a.step env .unloadAll).2 j = none := by
  obtain ⟨h1, h2, _⟩ := unload_shape h
  refine ⟨?_, h2, ?_⟩
  · simp only [Api.step]
    rw [h1]
    rfl
  · intro j
    by_contra hc
    obtain ⟨h0, h1⟩ := dataset_range hc
    simp only [Api.step, Api.unloadAllDataset, len, List.length_nil] at h1
    omega

/-- C41: an id stays bound to a dataset of the same file until it is unloaded. -/
theorem C41_bound (a a' : Api α) (h : List (Env α × Call α)) (e : Api.run a h = some a') (i : Int)
    (hno : ∀ x ∈ h, x.2 ≠ .unload i ∧ x.2 ≠ .unloadAll) (info : DatasetInfo) (hi : a.getDatasetInfo i = .ok info) :
    ∃ info', a'.getDatasetInfo i = .ok info' ∧ info'.id = info.id ∧ info'.name = info.name := by
  have hb : ∃ s, dataset a i = some s ∧ info = Api.infoOf i s := by
    rw [info_eq] at hi
    rcases hs : dataset a i with _ | s
    · rw [hs] at hi
      simp at hi
    · rw [hs] at hi
      simp only [Res.ok.injEq] at hi
      exact ⟨s, rfl, hi.symm⟩
  obtain ⟨s, hs, rfl⟩ := hb
  have := run_inv (P := fun b => ∃ s', dataset b i = some s' ∧ s'.ds.filePath = s.ds.filePath) h a a' ?_ ⟨s, hs, rfl⟩ e
  · obtain ⟨s', h1, h2⟩ := this
    refine ⟨Api.infoOf i s', ?_, rfl, h2⟩
    rw [info_eq, h1]
  · rintro x hx b ⟨s', h1, h2⟩
    obtain ⟨s'', h3, h4⟩ := step_keeps x.1 b x.2 i (hno x hx).1 (hno x hx).2 h1
    exact ⟨s'', h3, h4.trans h2⟩

/-! ## C42 -/

/-- C42: every call about an id that is not in use throws and changes nothing. -/
theorem C42_unknown_id (env : Env α) (a : Api α) (c : Call α) (i : Int) (hi : i ∈ ids c) (h : dataset a i = none) :
    a.step env c = (.throw (.onex "There is no dataset with given index"), a) := by
  cases c <;> simp only [ids, List.mem_cons, List.not_mem_nil, or_false] at hi
  case save => subst hi; simp only [Api.step, Api.saveDataset, get_none h]; rfl
  case unload => subst hi; simp only [Api.step, Api.unloadDataset, get_none h]; rfl
  case info => subst hi; simp only [Api.step, info_eq, h]; rfl
  case normalize => subst hi; simp only [Api.step, Api.normalizeDataset, on_none h]; rfl
  case group => subst hi; simp only [Api.step, Api.groupDataset, on_none h]; rfl
  case saveGroup => subst hi; simp only [Api.step, Api.saveGroup, get_none h]; rfl
  case loadGroup => subst hi; simp only [Api.step, Api.loadGroup, on_none h]; rfl
  case paa => subst hi; simp only [Api.step, Api.PAA, on_none h]; rfl
  case bestMatch r q j st e =>
    have hq : querySeries a r q j st e = .throw "There is no dataset with given index" := by
      unfold querySeries
      rcases hi with rfl | rfl
      · rw [get_none h]
        rfl
      · rw [get_eq]
        rcases dataset a r with _ | s
        · rfl
        · rw [Res.bind_ok, get_none h]
          rfl
    simp only [Api.step, match_eq, hq]
    rfl

/-- C42: a load that throws changes nothing. -/
theorem C42_failed_load (env : Env α) (a a' : Api α) (file : Option Text) (path : String) (m sc : Int) (seps : Text)
    (e : Exc) (h : a.step env (.load file path m sc seps) = (.throw e, a')) : a' = a := by
  simp only [Api.step] at h
  rcases hl : a.loadDataset env file path m sc seps with ⟨r, b⟩
  rw [hl] at h
  simp only [Prod.mk.injEq] at h
  obtain ⟨h1, rfl⟩ := h
  rcases load_shape hl with ⟨_, hb, _⟩ | ⟨id, g, _, _, hr, _⟩
  · exact hb
  · subst hr
    simp [Res.map] at h1

/-! ## C43 -/

/-- C43: a call leaves every dataset alone that it is not meant to change. -/
theorem C43_others_unchanged (env : Env α) (a : Api α) (c : Call α) (j : Int) (hj : ¬ mayChange c j)
    (h : dataset a j ≠ none) : dataset (a.step env c).2 j = dataset a j := by
  cases c with
  | load file path m sc seps =>
    simp only [Api.step]
    rcases hl : a.loadDataset env file path m sc seps with ⟨r, a'⟩
    rcases load_shape hl with ⟨_, e, _⟩ | ⟨id, g, hfree, _, _, hd, _⟩
    · rw [e]
    · change dataset a' j = _
      rw [hd, if_neg]
      rintro rfl
      exact h hfree.2.1
  | unload i =>
    simp only [Api.step]
    by_cases hi : dataset a i = none
    · unfold Api.unloadDataset
      rw [get_none hi]
    · rw [(unload_shape hi).2.1, if_neg (show ¬ j = i from hj)]
  | unloadAll => exact absurd trivial hj
  | normalize i => exact step_normalize env a i ▸ on_other _ hj
  | group i st => exact step_group env a i st ▸ on_other _ hj
  | loadGroup i f => exact step_loadGroup env a i f ▸ on_other _ hj
  | bestMatch r q i st e =>
    simp only [Api.step, match_eq]
    rcases querySeries a r q i st e with x | x | x
    · exact on_other _ hj
    · rfl
    · rfl
  | paa i n =>
    simp only [Api.step, paa_eq]
    exact on_other _ hj
  | save _ _ _ _ => rfl
  | info _ => rfl
  | allInfo => rfl
  | saveGroup _ _ _ => rfl
  | setRatio _ => rfl

theorem on_same {β : Type} {a b : Api α} {i : Int} (f : GSet α → Eff (GSet α) β) (h : dataset a i = dataset b i) :
    (a.on i f).1 = (b.on i f).1 ∧ dataset (a.on i f).2 i = dataset (b.on i f).2 i := by
  rcases hd : dataset a i with _ | s
  · rw [on_none hd, on_none (h ▸ hd)]
    exact ⟨rfl, h⟩
  · have hb : dataset b i = some s := h ▸ hd
    rw [on_some hd, on_some hb]
    refine ⟨rfl, ?_⟩
    rw [dataset_put (by simp [hd]), dataset_put (by simp [hb]), if_pos rfl, if_pos rfl]

/-- C43: what a call on some ids returns, and what it makes of their datasets, does not depend on any
other dataset. -/
theorem C43_no_influence (env : Env α) (a b : Api α) (c : Call α) (hc : ids c ≠ []) (hr : a.ratio = b.ratio)
    (h : ∀ i ∈ ids c, dataset a i = dataset b i) :
    (a.step env c).1 = (b.step env c).1 ∧
      ∀ i ∈ ids c, dataset (a.step env c).2 i = dataset (b.step env c).2 i := by
  have hget : ∀ i, dataset a i = dataset b i → a.get i = b.get i := by
    intro i e
    rw [get_eq, get_eq, e]
  cases c with
  | save i _ _ _ =>
    have hi := h i (by simp [ids])
    simp only [Api.step, Api.saveDataset, hget i hi]
    exact ⟨trivial, h⟩
  | unload i =>
    have hi := h i (by simp [ids])
    simp only [Api.step]
    by_cases hn : dataset a i = none
    · unfold Api.unloadDataset
      rw [get_none hn, get_none (hi ▸ hn)]
      exact ⟨rfl, h⟩
    · have hn' : dataset b i ≠ none := hi ▸ hn
      rw [(unload_shape hn).1, (unload_shape hn').1]
      refine ⟨rfl, ?_⟩
      intro j hj
      rw [(unload_shape hn).2.1, (unload_shape hn').2.1, h j hj]
  | info i =>
    have hi := h i (by simp [ids])
    simp only [Api.step, info_eq, hi]
    exact ⟨trivial, h⟩
  | saveGroup i _ _ =>
    have hi := h i (by simp [ids])
    simp only [Api.step, Api.saveGroup, hget i hi]
    exact ⟨trivial, h⟩
  | normalize i =>
    have := on_same (a := a) (b := b) GSet.normalize (h i (by simp [ids]))
    simp only [Api.step, Api.normalizeDataset, ids, List.mem_singleton, forall_eq]
    exact ⟨congrArg _ this.1, this.2⟩
  | group i st =>
    have := on_same (a := a) (b := b) (GSet.groupAllLengths { env with ratio := b.ratio } "euclidean" st)
      (h i (by simp [ids]))
    simp only [Api.step, Api.groupDataset, ids, List.mem_singleton, forall_eq, hr]
    exact ⟨congrArg _ this.1, this.2⟩
  | loadGroup i f =>
    have := on_same (a := a) (b := b) (GSet.loadGroups { env with ratio := b.ratio } f) (h i (by simp [ids]))
    simp only [Api.step, Api.loadGroup, ids, List.mem_singleton, forall_eq, hr]
    exact ⟨congrArg _ this.1, this.2⟩
  | paa i n =>
    have hs := on_same (a := a) (b := b) (GSet.PAA env n) (h i (by simp [ids]))
    simp only [Api.step, ids, List.mem_singleton, forall_eq, paa_eq]
    refine ⟨?_, hs.2⟩
    unfold Api.PAA
    rcases ha : a.on i (GSet.PAA env n) with ⟨ra, a'⟩
    rcases hb : b.on i (GSet.PAA env n) with ⟨rb, b'⟩
    rw [ha, hb] at hs
    obtain ⟨h1, h2⟩ := hs
    simp only at h1 h2
    subst h1
    rcases ra with x | x | x
    · simp only [info_eq, h2]
    · rfl
    · rfl
  | bestMatch r q i st e =>
    have h1 := h r (by simp [ids])
    have h2 := h q (by simp [ids])
    have hq : querySeries a r q i st e = querySeries b r q i st e := by
      unfold querySeries
      rw [hget r h1, hget q h2]
    simp only [Api.step, match_eq, hq]
    rcases querySeries b r q i st e with x | x | x
    · simp only [hr]
      have := on_same (a := a) (b := b) (GSet.getBestMatch { env with ratio := b.ratio } x) h1
      refine ⟨congrArg _ this.1, ?_⟩
      intro j hj
      by_cases ej : j = r
      · rw [ej]
        exact this.2
      · rw [on_other _ ej, on_other _ ej, h j hj]
    · exact ⟨rfl, h⟩
    · exact ⟨rfl, h⟩
  | load _ _ _ _ _ => exact absurd rfl hc
  | unloadAll => exact absurd rfl hc
  | allInfo => exact absurd rfl hc
  | setRatio _ => exact absurd rfl hc

/-! ## C44 -/

/-- C44: the listing has one entry per id in use, in increasing order, equal to the info of that id and giving the
facts of the dataset bound to it, and as many as `getDatasetCount`. -/
theorem C44_listing (env : Env α) (a : Api α) (h : Reachable a) :
    ∃ l : List DatasetInfo, a.step env .allInfo = (.ok (.infos l), a) ∧ IdsInUse a (l.map DatasetInfo.id) ∧
      (∀ x ∈ l, a.getDatasetInfo x.id = .ok x ∧ ∃ s, dataset a x.id = some s ∧ x.name = s.ds.filePath ∧
        x.itemCount = s.ds.itemCount ∧ x.itemLength = s.ds.itemLength ∧ x.isNormalized = s.ds.normalized ∧
        (x.isGrouped = true ↔ s.groups ≠ none)) ∧
      a.getDatasetCount = l.length := by
  have hu := usedIds_inUse a
  have hl : ∀ (is : List Int), (∀ i ∈ is, dataset a i ≠ none) →
      (is.filterMap fun i => (dataset a i).map (Api.infoOf i)).map DatasetInfo.id = is := by
    intro is
    induction is with
    | nil => intro _; rfl
    | cons i is ih =>
      intro hi
      obtain ⟨s, hs⟩ := Option.ne_none_iff_exists'.mp (hi i (List.mem_cons_self ..))
      rw [List.filterMap_cons, hs]
      simp only [Option.map_some, List.map_cons]
      rw [ih fun j hj => hi j (List.mem_cons_of_mem _ hj)]
      rfl
  have hids := hl (usedIds a) fun i hi => (hu.2 i).mp hi
  refine ⟨(usedIds a).filterMap fun i => (dataset a i).map (Api.infoOf i), ?_, ?_, ?_, ?_⟩
  · simp only [Api.step, allInfo_spec]
    rfl
  · rw [hids]
    exact hu
  · intro x hx
    obtain ⟨i, hi, hx⟩ := List.mem_filterMap.mp hx
    obtain ⟨s, hs⟩ := Option.ne_none_iff_exists'.mp ((hu.2 i).mp hi)
    rw [hs] at hx
    simp only [Option.map_some, Option.some.injEq] at hx
    subst hx
    refine ⟨?_, s, hs, rfl, rfl, rfl, rfl, ?_⟩
    · rw [info_eq]
      change (match dataset a i with | some s => _ | none => _) = _
      rw [hs]
      rfl
    · change s.groups.isSome = true ↔ _
      rw [Option.isSome_iff_ne_none]
  · rw [C41_count a h _ hu]
    conv_lhs => rw [← hids]
    rw [List.length_map]

/-- A case: after loading three files and unloading the first, id 0 is free and the next load takes it; id 2 has its
dataset and id 3 does not exist. -/
example (env : Env α) (ratio : α) :
    let env : Env α := { env with stod := fun _ => .val DataT.zero }
    let ld : Env α × Call α := (env, .load (some "1 2\n3 4\n".toList) "f" 0 0 [' '])
    ∃ a, Api.run (Api.init ratio) [ld, ld, ld, (env, .unload 0)] = some a ∧ Reachable a ∧ LeastFree a 0 ∧
      IdsInUse a [1, 2] ∧ a.getDatasetCount = 2 ∧ dataset a 3 = none ∧
      ∃ a', a.step env ld.2 = (.ok (.info ⟨0, "f", 2, 2, false, false⟩), a') ∧ a'.getDatasetCount = 3 := by
  intro env ld
  have hr : ∃ a g, Api.run (Api.init ratio) [ld, ld, ld, (env, .unload 0)] = some a ∧
      a.slots = [none, some g, some g] ∧
      ∃ a', a.step env ld.2 = (.ok (.info ⟨0, "f", 2, 2, false, false⟩), a') ∧ a'.getDatasetCount = 3 := by
    refine ⟨_, _, rfl, rfl, _, rfl, rfl⟩
  obtain ⟨a, g, h1, h2, h3⟩ := hr
  have hd : ∀ i, dataset a i = if i = 1 ∨ i = 2 then some g else none := by
    intro i
    unfold dataset
    rw [h2]
    rcases i with (_ | _ | _ | n) | n
    · rfl
    · rfl
    · rfl
    · simp only [Int.ofNat_eq_natCast]
      rw [if_neg (by omega), if_neg (by omega), List.getElem?_eq_none (by simp only [List.length_cons, List.length_nil]; omega)]
      rfl
    · rw [if_pos (by omega), if_neg (by omega)]
  have hids : IdsInUse a [1, 2] := by
    refine ⟨by decide, ?_⟩
    intro i
    rw [hd]
    simp
    omega
  have hreach : Reachable a := ⟨ratio, _, h1⟩
  refine ⟨a, h1, hreach, ⟨le_refl _, by rw [hd]; rfl, fun j h0 h1 => by omega⟩, hids, C41_count a hreach _ hids, ?_, h3⟩
  rw [hd]
  rfl

end Onex
