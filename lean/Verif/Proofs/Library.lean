import Verif.Spec.Library
import Verif.Props.Answer
import Verif.Props.ApiMatch
import Verif.Proofs.NormalizeOdd
import Verif.Props.GroupLog
import Verif.Props.Paa

/-!
# The library does what its user expects
-/

namespace Onex

open Spec

/-- The dataset in memory is the one on paper. -/
structure Holding (e : Entry) (s : GSet XF) : Prop where
  rows : s.ds.Holds e.length (e.rows.map fins)
  nonempty : e.rows ≠ []
  pos : 1 ≤ e.length
  path : s.ds.filePath = e.path
  flag : s.ds.normalized = e.normalized
  ungrouped : e.threshold = none → s.groups = none
  grouped : ∀ st, e.threshold = some st → ∃ (s₀ s₁ : GSet XF) (env : Env XF) (ratio : ℝ) (n : Int), s₀.ds.Holds e.length (e.rows.map fins) ∧ FitEnv env e.length ratio ∧
    s₀.groupAllLengths env "euclidean" (F.fin st) = (.ok n, s₁) ∧ Matches e.length s₁ s

/-- The library in memory is the one on paper. -/
structure LibSim (a : Api XF) (A : Lib) : Prop where
  reachable : Reachable a
  ratio : a.ratio = F.fin A.ratio
  entries : ∀ j, Option.Rel Holding (A.entry j) (dataset a j)

theorem LibSim.get {a : Api XF} {A : Lib} (h : LibSim a A) {j : Int} {e : Entry} (he : A.entry j = .some e) :
    ∃ s, dataset a j = .some s ∧ Holding e s := by
  have := h.entries j
  rw [he] at this
  cases hd : dataset a j with
  | none => rw [hd] at this; cases this
  | some s =>
    rw [hd] at this
    cases this with
    | some h => exact ⟨s, rfl, h⟩

theorem LibSim.none_iff {a : Api XF} {A : Lib} (h : LibSim a A) {j : Int} : A.entry j = none ↔ dataset a j = none := by
  have := h.entries j
  cases he : A.entry j <;> cases hd : dataset a j <;> rw [he, hd] at this <;> first | (cases this; done) | simp

theorem reachable_step {α : Type} [DataT α] {a : Api α} (h : Reachable a) (env : Env α) (c : Call α)
    (hu : ∀ w, (a.step env c).1 ≠ .ub w) : Reachable (a.step env c).2 := by
  obtain ⟨ratio, hs, e⟩ := h
  refine ⟨ratio, hs ++ [(env, c)], ?_⟩
  have key : ∀ (hs : List (Env α × Call α)) (b : Api α), Api.run b hs = some a → Api.run b (hs ++ [(env, c)]) = some (a.step env c).2 := by
    intro hs
    induction hs with
    | nil =>
      intro b hb
      simp only [Api.run, Option.some.injEq] at hb
      subst hb
      rw [List.nil_append]
      unfold Api.run
      rcases hx : b.step env c with ⟨r, b'⟩
      rw [hx] at hu
      cases r with
      | ub w => exact absurd rfl (hu w)
      | ok => simp only [Api.run]
      | throw => simp only [Api.run]
    | cons x hs ih =>
      intro b hb
      rw [List.cons_append]
      unfold Api.run at hb ⊢
      rcases hx : b.step x.1 x.2 with ⟨r, b'⟩
      simp only [hx] at hb ⊢
      cases r with
      | ub w => simp at hb
      | ok => exact ih b' hb
      | throw => exact ih b' hb
  exact key hs _ e

theorem fits {A : Lib} {n : ℕ} (h : A.Fits n) : ∀ l ≤ n, RatioOk Rounding.exact A.ratio l := by
  intro l hl
  refine ⟨h.1, ?_⟩
  rw [Rounding.exact_f]
  exact lt_of_le_of_lt (mul_le_mul_of_nonneg_right (by exact_mod_cast hl) h.1) h.2

/-- What a call that answers or throws has to establish. -/
theorem LibSim.after {a a' : Api XF} {A A' : Lib} (h : LibSim a A) {env : Env XF} {c : Call XF} {r : Res (Ans XF)} {R : Reply}
    (e : a.step env c = (r, a')) (hr : Replies R r) (hratio : a'.ratio = F.fin A'.ratio)
    (he : ∀ j, Option.Rel Holding (A'.entry j) (dataset a' j)) :
    ∃ ans a', a.step env c = (ans, a') ∧ Replies R ans ∧ LibSim a' A' := by
  refine ⟨r, a', e, hr, ?_, hratio, he⟩
  have := reachable_step h.reachable env c (by rw [e]; intro w hw; rw [show r = .ub w from hw] at hr; cases hr)
  rwa [e] at this

/-- Calls that change nothing. -/
theorem LibSim.same {a : Api XF} {A : Lib} (h : LibSim a A) {env : Env XF} {c : Call XF} {r : Res (Ans XF)} {R : Reply}
    (e : a.step env c = (r, a)) (hr : Replies R r) : ∃ ans a', a.step env c = (ans, a') ∧ Replies R ans ∧ LibSim a' A :=
  h.after e hr h.ratio h.entries

/-- Calls that change one dataset. -/
theorem LibSim.put {a : Api XF} {A : Lib} (h : LibSim a A) {i : Int} {s s' : GSet XF} {e' : Entry} (hd : dataset a i = some s)
    (hh : Holding e' s') : ∀ j, Option.Rel Holding ((A.set i (some e')).entry j) (dataset (a.put i s') j) := by
  intro j
  rw [dataset_put (by rw [hd]; simp)]
  simp only [Lib.set]
  split
  · exact .some hh
  · exact h.entries j

theorem info_of {e : Entry} {s : GSet XF} (h : Holding e s) (i : Int) : Api.infoOf i s = e.info i := by
  have hg : s.groups.isSome = e.threshold.isSome := by
    cases ht : e.threshold with
    | none => rw [h.ungrouped ht]; rfl
    | some st =>
      obtain ⟨s₀, s₁, env, ratio, n, hR, hf, hgr, hm⟩ := h.grouped st ht
      obtain ⟨_, gs, _, _, hgs, _⟩ := searched_inv hR h.nonempty (hm.searched (.grouped hf hgr))
      rw [hgs]
      rfl
  unfold Api.infoOf Entry.info GSet.isGrouped
  rw [h.rows.itemCount, h.rows.itemLength, h.path, h.flag, hg, List.length_map]

theorem step_info {a : Api XF} {i : Int} {s : GSet XF} (hd : dataset a i = some s) : a.getDatasetInfo i = .ok (Api.infoOf i s) := by
  rw [info_eq, hd]

/-! ## Loading and unloading -/

theorem next_unique {A : Lib} {i j : Int} (h : A.Next i) (h' : A.Next j) : i = j := by
  rcases lt_trichotomy i j with hl | hl | hl
  · exact absurd h.2.1 (h'.2.2 i h.1 hl)
  · exact hl
  · exact absurd h'.2.1 (h.2.2 j h'.1 hl)

theorem load_normalized {env : Env XF} {file : Option Text} {path : String} {m sc : Int} {seps : Text} {g : GSet XF}
    (h : (GSet.empty : GSet XF).loadData env file path m sc seps = (.ok (), g)) :
    g.groups = none ∧ g.ds.normalized = false ∧ g.ds.filePath = path := by
  unfold GSet.loadData Dataset.loadData at h
  dsimp only at h
  split at h
  · simp at h
  · split at h
    · simp at h
    · simp at h
    · simp only [Prod.mk.injEq, true_and] at h
      rw [← h]
      exact ⟨rfl, rfl, rfl⟩

theorem sim_load {env : Env XF} {a : Api XF} {A : Lib} (h : LibSim a A) {text : Text} {lines : List Text} {path : String}
    {maxNumRow : Int} {seps : Text} {toks : List (List Text)} {rows : List (List ℝ)} {s c k : ℕ} {id : Int} (hf : FileHas text lines)
    (hk : k = rowsToRead maxNumRow lines.length) (hk1 : 1 ≤ k)
    (ht : List.Forall₂ (fun l ts => LineHas seps l ts ∧ ts.length = c) (lines.take k) toks) (hs : s < c)
    (hv : List.Forall₂ (fun ts row => List.Forall₂ (fun t x => env.stod t = .val (F.fin x)) (ts.drop s) row) toks rows)
    (hid : A.Next id) :
    ∃ ans a', a.step env (.load (some text) path maxNumRow s seps) = (ans, a') ∧
      Replies (.info (Entry.info ⟨path, c - s, rows, false, none⟩ id)) ans ∧ LibSim a' (A.set id (some ⟨path, c - s, rows, false, none⟩)) := by
  have hv' : List.Forall₂ (fun ts row => List.Forall₂ (fun t x => env.stod t = .val x) (ts.drop s) row) toks (rows.map fins) := by
    rw [List.forall₂_map_right_iff]
    refine hv.imp fun ts row hr => ?_
    unfold fins
    rwa [List.forall₂_map_right_iff]
  obtain ⟨ds', e1, e2, e3, e4⟩ := C18_load_rectangular env.stod hf seps maxNumRow s c k hk hk1 toks ht hs.le _ hv' (Dataset.empty : Dataset XF) path
  have hg : (GSet.empty : GSet XF).loadData env (some text) path maxNumRow s seps = (.ok (), ⟨ds', none, none⟩) := by
    unfold GSet.loadData
    rw [show (GSet.empty : GSet XF).ds = Dataset.empty from rfl, e1]
    rfl
  rcases hl : a.loadDataset env (some text) path maxNumRow s seps with ⟨r, a'⟩
  have hrows : rows ≠ [] := by
    have := hv.length_eq
    have h2 := ht.length_eq
    rw [List.length_take] at h2
    have := rowsToRead_le maxNumRow lines.length
    intro h0
    subst h0
    simp only [List.length_nil] at *
    omega
  rcases load_shape hl with ⟨_, _, hn⟩ | ⟨id', g, hfree, hg', hr, hd, _, hratio, _⟩
  · exfalso
    exact hn _ hg
  · rw [hg] at hg'
    simp only [Prod.mk.injEq, true_and] at hg'
    subst hg'
    have hid' : A.Next id' := by
      refine ⟨hfree.1, h.none_iff.mpr hfree.2.1, fun j h0 h1 hn => hfree.2.2 j h0 h1 (h.none_iff.mp hn)⟩
    obtain rfl := next_unique hid hid'
    have hnorm := load_normalized hg
    have hh : Holding ⟨path, c - s, rows, false, none⟩ ⟨ds', none, none⟩ :=
      ⟨e4, hrows, by show 1 ≤ c - s; omega, hnorm.2.2, hnorm.2.1, fun _ => rfl, fun st hst => by simp at hst⟩
    refine h.after (c := .load (some text) path maxNumRow s seps) (r := r.map .info) (a' := a') ?_ ?_ ?_ ?_
    · simp only [Api.step, hl]
    · rw [hr, info_of hh]
      exact .info _
    · rw [hratio, h.ratio]
      rfl
    · intro j
      rw [hd]
      simp only [Lib.set]
      split
      · exact .some hh
      · exact h.entries j

theorem sim_loadFails {env : Env XF} {a : Api XF} {A : Lib} (h : LibSim a A) {file : Option Text} {path : String} {maxNumRow : Int}
    {seps : Text} {s : ℕ} (hn : ¬ ∃ text lines, file = some text ∧ FileHas text lines ∧
      Rectangular env.stod seps s (lines.take (rowsToRead maxNumRow lines.length))) :
    ∃ ans a', a.step env (.load file path maxNumRow s seps) = (ans, a') ∧ Replies .error ans ∧ LibSim a' A := by
  rcases C19_load_outcome env.stod file path maxNumRow s seps (Dataset.empty : Dataset XF) with ⟨⟨m, hm⟩, _⟩ | ⟨_, hx⟩
  · rcases hd : (Dataset.empty : Dataset XF).loadData env.stod file path maxNumRow s seps with ⟨r, ds⟩
    rw [hd] at hm
    obtain rfl : r = .throw m := hm
    refine h.same (r := .throw (.onex m)) ?_ (.error m)
    have hg : ∃ g, (GSet.empty : GSet XF).loadData env file path maxNumRow s seps = (.throw (.onex m), g) := by
      unfold GSet.loadData
      rw [show (GSet.empty : GSet XF).ds = Dataset.empty from rfl, hd]
      exact ⟨_, rfl⟩
    obtain ⟨g, hg⟩ := hg
    simp only [Api.step, Api.loadDataset, hg]
    rfl
  · exact absurd hx hn

theorem sim_unload {env : Env XF} {a : Api XF} {A : Lib} (h : LibSim a A) {id : Int} {e : Entry} (he : A.entry id = some e) :
    ∃ ans a', a.step env (.unload id) = (ans, a') ∧ Replies .done ans ∧ LibSim a' (A.set id none) := by
  obtain ⟨s, hd, _⟩ := h.get he
  obtain ⟨h1, h2, _, h4, _⟩ := unload_shape (a := a) (i := id) (by rw [hd]; simp)
  refine h.after (r := .ok .unit) (a' := (a.unloadDataset id).2) ?_ .done (by rw [h4, h.ratio]; rfl) ?_
  · simp only [Api.step]
    rw [h1]
    rfl
  · intro j
    rw [h2]
    simp only [Lib.set]
    split
    · exact .none
    · exact h.entries j

theorem sim_listing (env : Env XF) {a : Api XF} {A : Lib} (h : LibSim a A) :
    ∃ l, a.step env .allInfo = (.ok (.infos l), a) ∧ (l.map DatasetInfo.id).Pairwise (· < ·) ∧
      ∀ x, x ∈ l ↔ ∃ e, A.entry x.id = some e ∧ x = e.info x.id := by
  obtain ⟨l', e, hids, hx, _⟩ := C44_listing env a h.reachable
  refine ⟨l', e, hids.1, fun x => ?_⟩
  constructor
  · intro hx'
    obtain ⟨h1, s, hs, _⟩ := hx x hx'
    have := h.entries x.id
    rw [hs] at this
    cases hA : A.entry x.id with
    | none => rw [hA] at this; cases this
    | some e =>
      rw [hA] at this
      cases this with
      | some hh =>
        refine ⟨e, rfl, ?_⟩
        rw [step_info hs, Res.ok.injEq, info_of hh] at h1
        exact h1.symm
  · rintro ⟨e, he, ex⟩
    obtain ⟨s, hs, hh⟩ := h.get he
    have hid : x.id ∈ l'.map DatasetInfo.id := (hids.2 _).mpr (by rw [hs]; simp)
    obtain ⟨y, hy, ey⟩ := List.mem_map.mp hid
    have h1 := (hx y hy).1
    rw [ey, step_info hs, Res.ok.injEq, info_of hh, ← ex] at h1
    rwa [h1]

theorem sim_allInfo {env : Env XF} {a : Api XF} {A : Lib} (h : LibSim a A) {l : List DatasetInfo}
    (hl : (l.map DatasetInfo.id).Pairwise (· < ·)) (hm : ∀ x, x ∈ l ↔ ∃ e, A.entry x.id = some e ∧ x = e.info x.id) :
    ∃ ans a', a.step env .allInfo = (ans, a') ∧ Replies (.infos l) ans ∧ LibSim a' A := by
  obtain ⟨l', e, hids, hx⟩ := sim_listing env h
  refine h.same e ?_
  have hmem : ∀ x, x ∈ l' ↔ x ∈ l := fun x => by rw [hm, hx]
  have hp : ∀ l : List DatasetInfo, (l.map DatasetInfo.id).Pairwise (· < ·) → l.Pairwise fun x y => x.id < y.id := by
    intro l
    exact List.pairwise_map.mp
  have : l' = l := by
    have p1 := hp _ hids
    have p2 := hp _ hl
    have n1 : l'.Nodup := p1.imp fun hlt heq => by rw [heq] at hlt; exact lt_irrefl _ hlt
    have n2 : l.Nodup := p2.imp fun hlt heq => by rw [heq] at hlt; exact lt_irrefl _ hlt
    have hperm : l'.Perm l := (List.perm_ext_iff_of_nodup n1 n2).mpr hmem
    exact hperm.eq_of_pairwise (fun x y _ _ h1 h2 => absurd (lt_trans h1 h2) (lt_irrefl _)) p1 p2
  rw [this]
  exact .infos l

/-! ## Saving -/

theorem sim_save {env : Env XF} {a : Api XF} {A : Lib} (h : LibSim a A) {id : Int} {e : Entry} {path : String} {sep : Char}
    (he : A.entry id = some e) : ∃ ans a', a.step env (.save id true path sep) = (ans, a') ∧
      Replies (.text (e.text env.io.show6 sep)) ans ∧ LibSim a' A := by
  obtain ⟨s, hd, hh⟩ := h.get he
  refine h.same (r := .ok (.text (e.text env.io.show6 sep))) ?_ (.text _)
  simp only [Api.step, Api.saveDataset, get_some hd, Res.bind_ok, Dataset.saveData, if_true, saveText_spec hh.rows]
  simp only [Res.map, Entry.text, saveLine, List.flatMap_map, fins]

theorem sim_saveFails {env : Env XF} {a : Api XF} {A : Lib} (h : LibSim a A) {id : Int} {e : Entry} {path : String} {sep : Char}
    (he : A.entry id = some e) : ∃ ans a', a.step env (.save id false path sep) = (ans, a') ∧ Replies .error ans ∧ LibSim a' A := by
  obtain ⟨s, hd, hh⟩ := h.get he
  refine h.same (r := .throw (.onex ("Cannot open " ++ path))) ?_ (.error _)
  · simp only [Api.step, Api.saveDataset, get_some hd, Res.bind_ok, Dataset.saveData]
    rfl

/-! ## Changing a dataset -/

theorem normalize_flag {ds ds' : Dataset XF} {p} (h : ds.normalize = (.ok p, ds')) : ds'.normalized = true := by
  unfold Dataset.normalize at h
  dsimp only at h
  split at h
  · simp at h
  · split at h
    · rename_i hr
      obtain ⟨b, _, hr⟩ := Res.bind_eq_ok.mp hr
      obtain ⟨x, _, hr⟩ := Res.bind_eq_ok.mp hr
      simp only [Prod.mk.injEq] at h
      rw [← h.2]
      split at hr
      · split at hr
        · obtain ⟨y, _, hr⟩ := Res.bind_eq_ok.mp hr
          simp only [Res.pure_eq, Res.ok.injEq, Prod.mk.injEq] at hr
          rw [← hr.1]
        · simp only [Res.pure_eq, Res.bind_ok, Res.ok.injEq, Prod.mk.injEq] at hr
          rw [← hr.1]
      · obtain ⟨y, _, hr⟩ := Res.bind_eq_ok.mp hr
        simp only [Res.pure_eq, Res.ok.injEq, Prod.mk.injEq] at hr
        rw [← hr.1]
    · simp at h
    · simp at h

theorem sim_normalize {env : Env XF} {a : Api XF} {A : Lib} (h : LibSim a A) {id : Int} {e : Entry} {lo hi : ℝ}
    (he : A.entry id = some e) (hg : e.threshold = none) (hsize : e.length < 2 ^ 31) (hpar : Even e.length ∨ Odd e.rows.length)
    (hlo : IsLeast {x | ∃ r ∈ e.rows, x ∈ r} lo) (hhi : IsGreatest {x | ∃ r ∈ e.rows, x ∈ r} hi) :
    ∃ ans a', a.step env (.normalize id) = (ans, a') ∧ Replies (.range lo hi) ans ∧
      LibSim a' (A.set id (some { e with
        rows := e.rows.map fun r => r.map fun v => if lo = hi then 0 else (v - lo) / (hi - lo),
        normalized := true })) := by
  obtain ⟨s, hd, hh⟩ := h.get he
  obtain ⟨lo', hi', ds', hn, hlo', hhi', hR, _⟩ := C20_normalize_partial hh.rows hh.pos hsize
    (List.length_pos_iff.mpr hh.nonempty) hpar
  obtain rfl : lo = lo' := hlo.unique hlo'
  obtain rfl : hi = hi' := hhi.unique hhi'
  have hs : s.normalize = (.ok (F.fin lo, F.fin hi), { s with ds := ds' }) := by
    unfold GSet.normalize
    rw [hn]
  have hpath := path_normalize s
  rw [hs] at hpath
  refine h.after (r := .ok (.pair (F.fin lo, F.fin hi))) (a' := a.put id { s with ds := ds' }) ?_ (.range lo hi) h.ratio
    (h.put hd ⟨?_, ?_, hh.pos, hpath.trans hh.path, normalize_flag hn, fun _ => hh.ungrouped hg, ?_⟩)
  · simp only [Api.step, Api.normalizeDataset, on_some hd, hs]
    rfl
  · rw [List.map_map]
    exact hR
  · simpa using hh.nonempty
  · intro st hst
    rw [show e.threshold = some st from hst] at hg
    simp at hg

theorem values_dropLast (R : List (List ℝ)) : values (R.map List.dropLast) = {x | ∃ r ∈ R, x ∈ r.dropLast} := by
  ext x
  constructor
  · rintro ⟨r, hr, hx⟩
    obtain ⟨r', hr', rfl⟩ := List.mem_map.mp hr
    exact ⟨r', hr', hx⟩
  · rintro ⟨r, hr, hx⟩
    exact ⟨_, List.mem_map_of_mem hr, hx⟩

theorem sim_normalizeOdd {env : Env XF} {a : Api XF} {A : Lib} (h : LibSim a A) {id : Int} {e : Entry} {lo hi : ℝ}
    (he : A.entry id = some e) (hg : e.threshold = none) (hsize : e.length < 2 ^ 31) (h3 : 3 ≤ e.length) (hodd : Odd e.length)
    (heven : Even e.rows.length) (hlo : IsLeast {x | ∃ r ∈ e.rows, x ∈ r.dropLast} lo)
    (hhi : IsGreatest {x | ∃ r ∈ e.rows, x ∈ r.dropLast} hi) :
    ∃ ans a', a.step env (.normalize id) = (ans, a') ∧ Replies (.range lo hi) ans ∧
      LibSim a' (A.set id (some { e with
        rows := e.rows.map fun r => r.map fun v => if lo = hi then if lo = 0 then v else 0 else (v - lo) / (hi - lo),
        normalized := true })) := by
  obtain ⟨s, hd, hh⟩ := h.get he
  obtain ⟨lo', hi', ds', hn, hlo', hhi', hR⟩ := normalize_odd hh.rows h3 hsize (List.length_pos_iff.mpr hh.nonempty) hodd heven
  rw [values_dropLast] at hlo' hhi'
  obtain rfl : lo = lo' := hlo.unique hlo'
  obtain rfl : hi = hi' := hhi.unique hhi'
  have hv : normVal Rounding.exact lo hi = fun v => if lo = hi then if lo = 0 then v else 0 else (v - lo) / (hi - lo) := by
    funext v
    simp only [normVal, Rounding.exact_f, sub_eq_zero]
    by_cases hlh : lo = hi
    · subst hlh
      simp
    · rw [if_neg (Ne.symm hlh), if_neg hlh]
  rw [hv] at hR
  have hs : s.normalize = (.ok (F.fin lo, F.fin hi), { s with ds := ds' }) := by
    unfold GSet.normalize
    rw [hn]
  have hpath := path_normalize s
  rw [hs] at hpath
  refine h.after (r := .ok (.pair (F.fin lo, F.fin hi))) (a' := a.put id { s with ds := ds' }) ?_ (.range lo hi) h.ratio
    (h.put hd ⟨?_, ?_, hh.pos, hpath.trans hh.path, normalize_flag hn, fun _ => hh.ungrouped hg, ?_⟩)
  · simp only [Api.step, Api.normalizeDataset, on_some hd, hs]
    rfl
  · rw [List.map_map]
    exact hR
  · simpa using hh.nonempty
  · intro st hst
    rw [show e.threshold = some st from hst] at hg
    simp at hg

theorem isPaa_unique {n : ℕ} {r x y : List ℝ} (hx : IsPaa n r x) (hy : IsPaa n r y) : x = y :=
  List.ext_getElem (by rw [hx.length, hy.length]) fun j h1 h2 => by rw [hx.value j h1, hy.value j h2]

theorem sim_paa {env : Env XF} {a : Api XF} {A : Lib} (h : LibSim a A) {id : Int} {e : Entry} {rows : List (List ℝ)} {n : ℕ}
    (he : A.entry id = some e) (hg : e.threshold = none) (hn : 1 ≤ n) (hp : List.Forall₂ (IsPaa n) e.rows rows) :
    ∃ ans a', a.step env (.paa id n) = (ans, a') ∧
      Replies (.info (Entry.info { e with length := (e.length + n - 1) / n, rows := rows } id)) ans ∧
      LibSim a' (A.set id (some { e with length := (e.length + n - 1) / n, rows := rows })) := by
  obtain ⟨s, hd, hh⟩ := h.get he
  obtain ⟨ds', R', e1, e2, e3, e4, e5⟩ := C22_paa_means env.junk hh.rows hh.pos n hn
  have hrows : R' = rows := by
    clear e4
    generalize e.rows = R at hp e5
    induction hp generalizing R' with
    | nil => cases e5; rfl
    | cons h1 _ ih =>
      cases e5 with
      | cons h2 h3 => rw [isPaa_unique h1 h2, ih _ h3]
  subst hrows
  have hs : GSet.PAA env n s = (.ok (), { s with ds := ds' }) := by
    unfold GSet.PAA
    rw [e1]
  have hpath := path_paa env n s
  rw [hs] at hpath
  have hflag : ds'.normalized = s.ds.normalized := by
    unfold Dataset.PAA at e1
    dsimp only at e1
    split at e1
    · simp at e1
    · split at e1
      · simp at e1
      · split at e1 <;> simp only [Prod.mk.injEq, reduceCtorEq, false_and, true_and] at e1
        rw [← e1]
  have hlen := hp.length_eq
  have hh' : Holding { e with length := (e.length + n - 1) / n, rows := R' } { s with ds := ds' } := by
    refine ⟨e4, ?_, ?_, hpath.trans hh.path, hflag.trans hh.flag, fun _ => hh.ungrouped hg, ?_⟩
    · intro h0
      rw [show R' = [] from h0] at hlen
      exact hh.nonempty (List.length_eq_zero_iff.mp hlen)
    · have := hh.pos
      show 1 ≤ (e.length + n - 1) / n
      rw [Nat.le_div_iff_mul_le (by omega)]
      omega
    · intro st hst
      rw [show e.threshold = some st from hst] at hg
      simp at hg
  have hput := h.put hd hh'
  refine h.after (a' := a.put id { s with ds := ds' }) ?_ (.info _) h.ratio hput
  have hd' : dataset (a.put id { s with ds := ds' }) id = some { s with ds := ds' } := by
    rw [dataset_put (by rw [hd]; simp), if_pos rfl]
  simp only [Api.step, Api.PAA, on_some hd, hs, step_info hd', info_of hh']
  rfl

theorem sim_badBlock {env : Env XF} {a : Api XF} {A : Lib} (h : LibSim a A) {id : Int} {e : Entry} {n : Int}
    (he : A.entry id = some e) (hn : n ≤ 0) : ∃ ans a', a.step env (.paa id n) = (ans, a') ∧ Replies .error ans ∧ LibSim a' A := by
  obtain ⟨s, hd, hh⟩ := h.get he
  obtain ⟨m, hm⟩ := C22_bad_block_size env.junk s.ds n hn
  refine h.after (r := .throw (.onex m)) (a' := a.put id s) ?_ (.error m) h.ratio ?_
  · simp only [Api.step, Api.PAA, on_some hd, GSet.PAA, hm]
    rfl
  · intro j
    rw [dataset_put (by rw [hd]; simp)]
    split
    · subst j
      rw [← hd]
      exact h.entries id
    · exact h.entries j

/-! ## Grouping -/

theorem groups_number {s s' : GSet XF} {env : Env XF} {name : String} {th : XF} {n : Int}
    (h : s.groupAllLengths env name th = (.ok n, s')) (L : ℕ) (hL : s.ds.itemLength = L) (g : ℕ → ℕ)
    (hg : ∀ l : ℕ, 2 ≤ l → l ≤ L → ∃ ls, GroupsOf s' l ls ∧ ls.groups.length = g l) :
    n = (((List.range' 2 (L - 1)).map g).sum : ℕ) := by
  unfold GSet.groupAllLengths at h
  split at h
  · simp at h
  · simp only at h
    rcases hx : (GlobalSpace.fresh : GlobalSpace XF).group env.ratio s.reset.ds name th env.doLog with ⟨r, gs⟩
    rw [hx] at h
    rcases r with m | m | m <;> simp only [Prod.mk.injEq, Res.ok.injEq, reduceCtorEq, false_and] at h
    obtain ⟨rfl, h⟩ := h
    obtain ⟨dn, _, _, hb⟩ := group_ok hx
    rw [hb.total]
    have hds : s.reset.ds = s.ds := rfl
    have hsz := hb.size
    rw [hds, hL] at hsz
    simp only [len] at hsz
    have key : ∀ m : ℕ, m ≤ gs.locals.length → ((gs.locals.take m).map entryGroups).sum =
        (((List.range' 2 (m - 2)).map g).sum : ℕ) := by
      intro m
      induction m with
      | zero => intro _; rfl
      | succ m ih =>
        intro hm
        have hlt : m < gs.locals.length := by omega
        rw [List.take_succ_eq_append_getElem hlt, List.map_append, List.sum_append, ih (by omega)]
        have e := vget_nat hlt
        by_cases hm2 : m < 2
        · rw [hb.short m (by omega) (by omega) (by rw [hds, hL]; omega), Res.ok.injEq] at e
          rw [← e, show m + 1 - 2 = m - 2 from by omega]
          simp [entryGroups]
        · obtain ⟨ls, ⟨gs', e1, e2⟩, e3⟩ := hg m (by omega) (by omega)
          rw [← h] at e1
          simp only [Option.some.injEq] at e1
          rw [← e1, e] at e2
          simp only [Res.ok.injEq] at e2
          rw [e2, show m + 1 - 2 = (m - 2) + 1 from by omega, List.range'_concat, List.map_append, List.sum_append]
          simp [entryGroups, e3, show 2 + (m - 2) = m from by omega]
    have := key gs.locals.length (le_refl _)
    rw [List.take_length] at this
    rw [this, show gs.locals.length - 2 = L - 1 from by omega]

theorem sim_group {env : Env XF} {a : Api XF} {A : Lib} (h : LibSim a A) {id : Int} {e : Entry} {st : ℝ} {G : Int → List (List Coord)}
    (he : A.entry id = some e) (hfit : A.Fits e.length)
    (hlog : ∀ l : ℕ, 2 ≤ l → l ≤ e.length → env.doLog l = true → 5 ≤ e.rows.length * (e.length - l + 1)) (hG : e.Groups st G) :
    ∃ ans a', a.step env (.group id (F.fin st)) = (ans, a') ∧
      Replies (.number (((List.range' 2 (e.length - 1)).map fun l : ℕ => (G l).length).sum : ℕ)) ans ∧
      LibSim a' (A.set id (some { e with threshold := some st })) := by
  obtain ⟨s, hd, hh⟩ := h.get he
  have hf : FitEnv ({ env with ratio := a.ratio } : Env XF) e.length A.ratio := ⟨h.ratio, fits hfit⟩
  obtain ⟨n, s', hgr⟩ := (C36_exactly ({ env with ratio := a.ratio } : Env XF) A.ratio h.ratio s e.length e.rows hh.rows (fits hfit)
    "euclidean" (Or.inl rfl) (F.fin st)).1.mpr (Or.inr hlog)
  have hn : n = (((List.range' 2 (e.length - 1)).map fun l : ℕ => (G l).length).sum : ℕ) := by
    refine groups_number hgr e.length hh.rows.itemLength (fun l : ℕ => (G l).length) ?_
    intro l l2 lL
    obtain ⟨ls, G', h1, h2, h3, _⟩ := C59_leader { env with ratio := a.ratio } A.ratio h.ratio s s' e.length e.rows hh.rows hfit.1 hfit.2
      .euclidean st n hgr (l : Int) (by omega) (by omega)
    refine ⟨ls, h1, ?_⟩
    rw [← h3, (C59_leader_unique _ _ _).unique h2 (hG l (by omega) (by omega))]
  have hds := (searched_inv hh.rows hh.nonempty (.grouped hf hgr)).1
  refine h.after (r := .ok (.int n)) (a' := a.put id s') ?_ (by rw [hn]; exact .number _) h.ratio (h.put hd ?_)
  · simp only [Api.step, Api.groupDataset, on_some hd, hgr]
    rfl
  · refine ⟨by rw [hds]; exact hh.rows, hh.nonempty, hh.pos, by rw [hds]; exact hh.path, by rw [hds]; exact hh.flag, by simp, ?_⟩
    intro st' hst
    simp only [Option.some.injEq] at hst
    subst hst
    exact ⟨s, s', _, _, n, hh.rows, hf, hgr, .none⟩

/-! ## Matching -/

theorem sim_query {a : Api XF} {A : Lib} (h : LibSim a A) {r q index start stop : Int} {er eq : Entry} (hr : A.entry r = some er)
    (hq : A.entry q = some eq) {vals : List ℝ} (hw : eq.Window index start stop vals) :
    querySeries a r q index start stop = .ok (Series.mk' (fins vals)) := by
  obtain ⟨sr, hdr, _⟩ := h.get hr
  obtain ⟨sq, hdq, hh⟩ := h.get hq
  obtain ⟨h0, row, hrow, hc⟩ := hw
  obtain ⟨hi, hrow⟩ := List.getElem?_eq_some_iff.mp hrow
  obtain ⟨i, rfl⟩ := Int.eq_ofNat_of_zero_le h0
  have hres : ∃ v, sq.ds.getTimeSeries i start stop = .ok v ∧ sq.ds.resolve v = .ok (fins vals) := by
    simp only [Int.toNat_natCast] at hi hrow
    rcases hc with ⟨h1, h2, rfl⟩ | ⟨h1, h2, h3, rfl⟩
    · obtain ⟨v, e1, _, e2⟩ := C17_whole_row hh.rows i (by simpa using hi) start stop h1 h2
      refine ⟨v, e1, ?_⟩
      rw [e2, List.getElem_map, hrow]
    · obtain ⟨st, rfl⟩ := Int.eq_ofNat_of_zero_le h1
      obtain ⟨en, rfl⟩ := Int.eq_ofNat_of_zero_le (h1.trans h2.le)
      obtain ⟨v, e1, _, e2⟩ := C17_window_values hh.rows i st en (by simpa using hi) (by omega) (by omega)
      refine ⟨v, e1, ?_⟩
      rw [e2, List.getElem_map, hrow]
      simp only [Int.toNat_natCast, fins, List.map_drop, List.map_take, show ((en : Int) - st).toNat = en - st from by omega]
  obtain ⟨v, e1, e2⟩ := hres
  unfold querySeries
  rw [get_some hdr, get_some hdq]
  simp only [Res.bind_ok, e1, e2]
  rfl

theorem sim_match {env : Env XF} {a : Api XF} {A : Lib} (h : LibSim a A) {r q index start stop : Int} {er eq : Entry} {st : ℝ}
    {G : Int → List (List Coord)} {vals : List ℝ} {l : Int} {c : Coord} (hr : A.entry r = some er) (hq : A.entry q = some eq)
    (hg : er.threshold = some st) (hw : eq.Window index start stop vals) (h2 : 2 ≤ vals.length) (hL : vals.length ≤ er.length)
    (hfit : A.Fits er.length) (hG : er.Groups st G)
    (ha : Answer (fun l c => warped A.ratio vals (subVals er.rows l c)) G er.length vals.length l c) :
    ∃ ans a', a.step env (.bestMatch r q index start stop) = (ans, a') ∧
      Replies (.window c.1 c.2 (c.2 + l) (warped A.ratio vals (subVals er.rows l c))) ans ∧ LibSim a' A := by
  obtain ⟨s, hd, hh⟩ := h.get hr
  obtain ⟨s₀, s₁, env₀, ratio₀, n, hR, hf₀, hgr, hm⟩ := hh.grouped st hg
  have hf : FitEnv ({ env with ratio := a.ratio } : Env XF) er.length A.ratio := ⟨h.ratio, fits hfit⟩
  obtain ⟨G', l', c', s', e, hG', ha'⟩ := C60_answer s₀ s₁ s er.length er.rows hR hh.nonempty env₀ { env with ratio := a.ratio } ratio₀ A.ratio
    hf₀ hf .euclidean st n hgr hm vals _ (seriesOk_mk vals) h2 hL
  obtain ⟨rfl, rfl⟩ := C60_answer_unique _ G G' er.length vals.length l l' c c'
    (fun l h2 hL => (C59_leader_unique _ _ _).unique (hG l h2 hL) (hG' l h2 hL)) ha ha'
  have hm' : Matches er.length s₁ s' := .more hm (by rwa [max_eq_left hL]) (seriesOk_mk vals) e
  have hds := (searched_inv hR hh.nonempty (hm.searched (.grouped hf₀ hgr))).1
  have hds' := (searched_inv hR hh.nonempty (hm'.searched (.grouped hf₀ hgr))).1
  have hss : s'.ds = s.ds := hds'.trans hds.symm
  refine h.after (r := .ok (.cand _)) (a' := a.put r s') ?_ (.window (subView s.ds l c) _) h.ratio ?_
  · simp only [Api.step, match_eq, sim_query h hr hq hw, on_some hd, e]
    rfl
  · have := h.put hd (e' := er) (s' := s') ⟨by rw [hss]; exact hh.rows, hh.nonempty, hh.pos, by rw [hss]; exact hh.path, by rw [hss]; exact hh.flag,
      by rw [hg]; simp, fun st' hst => by
        rw [hg, Option.some.injEq] at hst
        subst hst
        exact ⟨s₀, s₁, env₀, ratio₀, n, hR, hf₀, hgr, hm'⟩⟩
    intro j
    have hj := this j
    simp only [Lib.set] at hj
    split at hj
    · subst j
      rwa [hr]
    · exact hj

theorem sim_badWindow {env : Env XF} {a : Api XF} {A : Lib} (h : LibSim a A) {r q index start stop : Int} {er eq : Entry}
    (hr : A.entry r = some er) (hq : A.entry q = some eq) (hw : ∀ vals, ¬ eq.Window index start stop vals) :
    ∃ ans a', a.step env (.bestMatch r q index start stop) = (ans, a') ∧ Replies .error ans ∧ LibSim a' A := by
  obtain ⟨sr, hdr, _⟩ := h.get hr
  obtain ⟨sq, hdq, hh⟩ := h.get hq
  have hb : ∃ m : String, sq.ds.getTimeSeries index start stop = .throw m := by
    rw [C17_throws_iff, hh.rows.itemCount, hh.rows.itemLength]
    rintro ⟨⟨h0, h1⟩, hc⟩
    rw [List.length_map] at h1
    have hi : index.toNat < eq.rows.length := by omega
    rcases hc with ⟨h2, h3⟩ | ⟨h2, h3, h4⟩
    · exact hw _ ⟨h0, _, List.getElem?_eq_getElem hi, Or.inl ⟨h2, h3, rfl⟩⟩
    · exact hw _ ⟨h0, _, List.getElem?_eq_getElem hi, Or.inr ⟨h2, h3, h4, rfl⟩⟩
  obtain ⟨m, hm⟩ := hb
  refine h.same (r := .throw (.onex m)) ?_ (.error m)
  have : querySeries a r q index start stop = .throw (.onex m) := by
    unfold querySeries
    rw [get_some hdr, get_some hdq]
    simp only [Res.bind_ok, hm]
    rfl
  simp only [Api.step, match_eq, this]
  rfl

theorem sim_rejected {env : Env XF} {a : Api XF} {A : Lib} (h : LibSim a A) {r q index start stop : Int} {er eq : Entry} {vals : List ℝ}
    (hr : A.entry r = some er) (hq : A.entry q = some eq) (hw : eq.Window index start stop vals)
    (hx : er.threshold = none ∨ vals.length < 2) :
    ∃ ans a', a.step env (.bestMatch r q index start stop) = (ans, a') ∧ Replies .error ans ∧ LibSim a' A := by
  obtain ⟨s, hd, hh⟩ := h.get hr
  obtain ⟨m, hm⟩ := C34_rejected_partial { env with ratio := a.ratio } s (Series.mk' (fins vals)) (by
    rcases hx with hx | hx
    · exact Or.inl (hh.ungrouped hx)
    · right
      simpa [Series.mk', Series.length, len, fins] using hx)
  refine h.after (r := .throw (.onex m)) (a' := a.put r s) ?_ (.error m) h.ratio ?_
  · simp only [Api.step, match_eq, sim_query h hr hq hw, on_some hd, hm]
    rfl
  · intro j
    rw [dataset_put (by rw [hd]; simp)]
    split
    · subst j
      rw [← hd]
      exact h.entries r
    · exact h.entries j

/-! ## Any call -/

theorem sim_step {env : Env XF} {a : Api XF} {A A' : Lib} {c : Call XF} {R : Reply} (h : LibSim a A) (hs : A.Step env c R A') :
    ∃ ans a', a.step env c = (ans, a') ∧ Replies R ans ∧ LibSim a' A' := by
  cases hs with
  | load hf hk hk1 ht hs hv hid => exact sim_load h hf hk hk1 ht hs hv hid
  | loadFails hn => exact sim_loadFails h hn
  | unknown hid hn => exact h.same (C42_unknown_id env a c _ hid (h.none_iff.mp hn)) (.error _)
  | save he => exact sim_save h he
  | saveFails he => exact sim_saveFails h he
  | unload he => exact sim_unload h he
  | unloadAll =>
    refine h.after (r := .ok .unit) (a' := a.unloadAllDataset) rfl .done h.ratio fun j => ?_
    rw [show dataset a.unloadAllDataset j = none from by simp [dataset, Api.unloadAllDataset]]
    exact .none
  | info he =>
    obtain ⟨s, hd, hh⟩ := h.get he
    refine h.same ?_ (.info _)
    simp only [Api.step, step_info hd, info_of hh]
    rfl
  | allInfo hl hm => exact sim_allInfo h hl hm
  | normalize he hg hsize hpar hlo hhi => exact sim_normalize h he hg hsize hpar hlo hhi
  | normalizeOdd he hg hsize h3 hodd heven hlo hhi => exact sim_normalizeOdd h he hg hsize h3 hodd heven hlo hhi
  | group he hfit hlog hG => exact sim_group h he hfit hlog hG
  | setRatio => exact h.after (r := .ok .unit) rfl .done rfl h.entries
  | bestMatch hr hq hg hw h2 hL hfit hG ha => exact sim_match h hr hq hg hw h2 hL hfit hG ha
  | badWindow hr hq hw => exact sim_badWindow h hr hq hw
  | rejected hr hq hw hx => exact sim_rejected h hr hq hw hx
  | paa he hg hn hp => exact sim_paa h he hg hn hp
  | badBlock he hn => exact sim_badBlock h he hn

theorem sim_init (ratio : ℝ) : LibSim (Api.init (F.fin ratio)) (Lib.new ratio) :=
  ⟨⟨F.fin ratio, [], rfl⟩, rfl, fun j => by
    rw [show dataset (Api.init (F.fin ratio : XF)) j = none from by simp [dataset, Api.init]]
    exact .none⟩

theorem sim_run {A B : Lib} {calls : List (Env XF × Call XF)} {rs : List Reply} (hs : A.Run calls rs B) :
    ∀ {a : Api XF}, LibSim a A → ∃ b, Api.run a calls = some b ∧ LibSim b B ∧ List.Forall₂ Replies rs (answersTo a calls) := by
  induction hs with
  | nil => exact fun h => ⟨_, rfl, h, .nil⟩
  | cons h1 _ ih =>
    intro a h
    obtain ⟨ans, a', e, hr, h'⟩ := sim_step h h1
    obtain ⟨b, e1, e2, e3⟩ := ih h'
    refine ⟨b, ?_, e2, ?_⟩
    · unfold Api.run
      rw [e]
      cases hr <;> exact e1
    · rw [answersTo, e]
      exact .cons hr e3

/-! ## Every call described has an answer -/

theorem next_exists {a : Api XF} {A : Lib} (h : LibSim a A) : ∃ id, A.Next id := by
  classical
  have hx : ∃ n : ℕ, A.entry n = none := by
    refine ⟨a.slots.length, h.none_iff.mpr ?_⟩
    by_contra hne
    have := (dataset_range hne).2
    simp [len] at this
  refine ⟨(Nat.find hx : ℕ), by omega, Nat.find_spec hx, fun j h0 hj => ?_⟩
  obtain ⟨k, rfl⟩ := Int.eq_ofNat_of_zero_le h0
  exact Nat.find_min hx (by omega)

theorem table_exists {stod : Text → Stod XF} (hfin : ∀ t x, stod t = .val x → ∃ y, x = F.fin y) {seps : Text} {s c : ℕ} :
    ∀ {lines : List Text}, (∀ l ∈ lines, ∃ ts, LineHas seps l ts ∧ ts.length = c ∧ ∀ t ∈ ts.drop s, ∃ x, stod t = .val x) →
    ∃ toks rows, List.Forall₂ (fun l ts => LineHas seps l ts ∧ ts.length = c) lines toks ∧
      List.Forall₂ (fun ts row => List.Forall₂ (fun t x => stod t = .val (F.fin x)) (ts.drop s) row) toks rows := by
  have hrow : ∀ ts : List Text, (∀ t ∈ ts, ∃ x, stod t = .val x) → ∃ row, List.Forall₂ (fun t x => stod t = .val (F.fin x)) ts row := by
    intro ts
    induction ts with
    | nil => exact fun _ => ⟨[], .nil⟩
    | cons t ts ih =>
      intro h
      obtain ⟨row, hr⟩ := ih fun t ht => h t (List.mem_cons_of_mem _ ht)
      obtain ⟨x, hx⟩ := h t (List.mem_cons_self ..)
      obtain ⟨y, rfl⟩ := hfin t x hx
      exact ⟨y :: row, .cons hx hr⟩
  intro lines
  induction lines with
  | nil => exact fun _ => ⟨[], [], .nil, .nil⟩
  | cons l lines ih =>
    intro h
    obtain ⟨toks, rows, h1, h2⟩ := ih fun l hl => h l (List.mem_cons_of_mem _ hl)
    obtain ⟨ts, h3, h4, h5⟩ := h l (List.mem_cons_self ..)
    obtain ⟨row, hr⟩ := hrow _ h5
    exact ⟨ts :: toks, row :: rows, .cons ⟨h3, h4⟩ h1, .cons hr h2⟩

theorem groups_exist (e : Entry) (st : ℝ) : ∃ G, e.Groups st G :=
  ⟨fun l => (C59_leader_unique (fun c c' => rms (subVals e.rows l c) (subVals e.rows l c')) (st / 2)
      (subOrder e.rows.length (e.length - l + 1).toNat)).choose,
    fun l _ _ => (C59_leader_unique (fun c c' => rms (subVals e.rows l c) (subVals e.rows l c')) (st / 2)
      (subOrder e.rows.length (e.length - l + 1).toNat)).choose_spec.1⟩

theorem step_exists (env : Env XF) {a : Api XF} {A : Lib} (h : LibSim a A) (c : Call XF) (hc : A.Covers env c) :
    ∃ R A', A.Step env c R A' := by
  cases c with
  | load file path m s seps =>
    obtain ⟨h0, hfin, hrect⟩ := hc
    obtain ⟨s, rfl⟩ := Int.eq_ofNat_of_zero_le h0
    by_cases hx : ∃ text lines, file = some text ∧ FileHas text lines ∧
        Rectangular env.stod seps s (lines.take (rowsToRead m lines.length))
    · obtain ⟨text, lines, rfl, hf, hR⟩ := hx
      obtain ⟨l, hl, hlt⟩ := hrect text lines rfl hf hR
      obtain ⟨c, hR⟩ := hR
      obtain ⟨ts, ht1, ht2, _⟩ := hR l hl
      have hs := hlt ts ht1
      rw [ht2, Int.toNat_natCast] at hs
      obtain ⟨toks, rows, h1, h2⟩ := table_exists hfin hR
      obtain ⟨id, hid⟩ := next_exists h
      refine ⟨_, _, .load hf rfl ?_ h1 hs h2 hid⟩
      have := List.length_pos_of_mem hl
      rw [List.length_take] at this
      omega
    · exact ⟨_, _, .loadFails hx⟩
  | save id can path sep =>
    cases he : A.entry id with
    | none => exact ⟨_, _, .unknown (id := id) (by simp [ids]) he⟩
    | some e =>
      cases can with
      | true => exact ⟨_, _, .save he⟩
      | false => exact ⟨_, _, .saveFails he⟩
  | unload id =>
    cases he : A.entry id with
    | none => exact ⟨_, _, .unknown (id := id) (by simp [ids]) he⟩
    | some e => exact ⟨_, _, .unload he⟩
  | unloadAll => exact ⟨_, _, .unloadAll⟩
  | info id =>
    cases he : A.entry id with
    | none => exact ⟨_, _, .unknown (id := id) (by simp [ids]) he⟩
    | some e => exact ⟨_, _, .info he⟩
  | allInfo =>
    obtain ⟨l, _, h1, h2⟩ := sim_listing env h
    exact ⟨_, _, .allInfo h1 h2⟩
  | normalize id =>
    cases he : A.entry id with
    | none => exact ⟨_, _, .unknown (id := id) (by simp [ids]) he⟩
    | some e =>
      obtain ⟨h1, h2, h3⟩ := hc e he
      obtain ⟨s, hd, hh⟩ := h.get he
      have hne := List.length_pos_iff.mpr hh.nonempty
      by_cases hpar : Even e.length ∨ Odd e.rows.length
      · obtain ⟨lo, hi, _, _, hlo, hhi, _⟩ := C20_normalize_partial hh.rows hh.pos h2 hne hpar
        exact ⟨_, _, .normalize he h1 h2 hpar hlo hhi⟩
      · rw [not_or, Nat.not_even_iff_odd, Nat.not_odd_iff_even] at hpar
        have hl : 3 ≤ e.length := by
          rcases h3 with h3 | h3 | h3
          · exact absurd h3 (Nat.not_even_iff_odd.mpr hpar.1)
          · exact absurd hpar.2 (Nat.not_even_iff_odd.mpr h3)
          · exact h3
        obtain ⟨lo, hi, _, _, hlo, hhi, _⟩ := normalize_odd hh.rows hl h2 hne hpar.1 hpar.2
        rw [values_dropLast] at hlo hhi
        exact ⟨_, _, .normalizeOdd he h1 h2 hl hpar.1 hpar.2 hlo hhi⟩
  | group id th =>
    cases he : A.entry id with
    | none => exact ⟨_, _, .unknown (id := id) (by simp [ids]) he⟩
    | some e =>
      obtain ⟨⟨st, rfl⟩, h2, h3⟩ := hc e he
      obtain ⟨G, hG⟩ := groups_exist e st
      exact ⟨_, _, .group he h2 h3 hG⟩
  | saveGroup id _ _ => exact ⟨_, _, .unknown (id := id) (by simp [ids]) hc⟩
  | loadGroup id _ => exact ⟨_, _, .unknown (id := id) (by simp [ids]) hc⟩
  | setRatio ratio =>
    obtain ⟨x, rfl⟩ := hc
    exact ⟨_, _, .setRatio⟩
  | bestMatch r q index start stop =>
    cases hr : A.entry r with
    | none => exact ⟨_, _, .unknown (id := r) (by simp [ids]) hr⟩
    | some er =>
      cases hq : A.entry q with
      | none => exact ⟨_, _, .unknown (id := q) (by simp [ids]) hq⟩
      | some eq =>
        by_cases hw : ∃ vals, eq.Window index start stop vals
        · obtain ⟨vals, hw⟩ := hw
          cases hg : er.threshold with
          | none => exact ⟨_, _, .rejected hr hq hw (Or.inl hg)⟩
          | some st =>
            by_cases h2 : vals.length < 2
            · exact ⟨_, _, .rejected hr hq hw (Or.inr h2)⟩
            · obtain ⟨hL, hfit⟩ := hc er eq vals hr hq (by rw [hg]; simp) hw (by omega)
              obtain ⟨s, hd, hh⟩ := h.get hr
              obtain ⟨s₀, s₁, env₀, ratio₀, n, hR, hf₀, hgr, hm⟩ := hh.grouped st hg
              have hf : FitEnv ({ env with ratio := a.ratio } : Env XF) er.length A.ratio := ⟨h.ratio, fits hfit⟩
              obtain ⟨G, l, c, s', e, hG, ha⟩ := C60_answer s₀ s₁ s er.length er.rows hR hh.nonempty env₀ { env with ratio := a.ratio }
                ratio₀ A.ratio hf₀ hf .euclidean st n hgr hm vals _ (seriesOk_mk vals) (by omega) hL
              exact ⟨_, _, .bestMatch hr hq hg hw (by omega) hL hfit hG ha⟩
        · exact ⟨_, _, .badWindow hr hq fun vals hv => hw ⟨vals, hv⟩⟩
  | paa id n =>
    cases he : A.entry id with
    | none => exact ⟨_, _, .unknown (id := id) (by simp [ids]) he⟩
    | some e =>
      by_cases hn : n ≤ 0
      · exact ⟨_, _, .badBlock he hn⟩
      · obtain ⟨n, rfl⟩ := Int.eq_ofNat_of_zero_le (by omega : 0 ≤ n)
        obtain ⟨s, hd, hh⟩ := h.get he
        obtain ⟨_, R', _, _, _, _, hp⟩ := C22_paa_means env.junk hh.rows hh.pos n (by omega)
        exact ⟨_, _, .paa he (hc e he) (by omega) hp⟩

theorem Replies.unique {R R' : Reply} {ans : Res (Ans XF)} (h : Replies R ans) (h' : Replies R' ans) : R = R' := by
  cases h <;> cases h' <;> rfl

end Onex
