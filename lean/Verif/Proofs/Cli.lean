import Verif.Proofs.Throws
import Verif.Proofs.Api
import Verif.Spec.Cli

/-!
# Lemmas about command lines
-/

namespace Onex

open Spec

set_option linter.unusedSectionVars false

variable {α : Type} [DataT α]

/-! ## Exceptions of API calls -/

theorem tame_loadTokens (stod : Text → Stod α) (row length sc : Int) : ∀ (toks : List Text) (col : Int) (d : List α),
    Tame (loadTokens stod row length sc col toks d)
  | [], col, d => by
    unfold loadTokens
    tame
  | t :: ts, col, d => by
    have ih := tame_loadTokens stod row length sc ts
    unfold loadTokens
    repeat' first
      | exact ih _ _
      | tame_step

theorem tame_loadRows (stod : Text → Stod α) (seps : Text) (m sc : Int) : ∀ (ls : List Text) (row len : Int)
    (d : Option (List α)), Tame (loadRows stod seps m sc row ls len d)
  | [], row, len, d => by
    unfold loadRows
    tame
  | l :: ls, row, len, d => by
    have ih := tame_loadRows stod seps m sc ls
    unfold loadRows
    repeat' first
      | exact ih _ _ _
      | exact tame_loadTokens _ _ _ _ _ _ _
      | tame_step

theorem tame_loadData (env : Env α) (s : GSet α) (f : Option Text) (p : String) (m sc : Int) (seps : Text) :
    Tame (s.loadData env f p m sc seps).1 := by
  unfold GSet.loadData Dataset.loadData
  dsimp only
  split
  · exact Throws.throw (by simp)
  · split
    · rename_i e he
      exact Throws.throw (show e ≠ Exc.badAlloc from tame_loadRows _ _ _ _ _ _ _ _ e he)
    · exact Throws.ub _
    · exact Throws.ok _

theorem tame_get (a : Api α) (i : Int) : Tame (a.get i) := by
  rw [get_eq]
  tame

theorem tame_info (a : Api α) (i : Int) : Tame (a.getDatasetInfo i) := by
  unfold Api.getDatasetInfo
  exact (tame_get a i).bind fun _ _ => Throws.ok _

theorem tame_load (env : Env α) (a : Api α) (f : Option Text) (p : String) (m sc : Int) (seps : Text) :
    Tame (a.loadDataset env f p m sc seps).1 := by
  have h := tame_loadData env GSet.empty f p m sc seps
  unfold Api.loadDataset
  dsimp only
  split
  · rename_i e he
    exact Throws.throw (show e ≠ Exc.badAlloc from h e he)
  · exact Throws.ub _
  · split
    · exact tame_info _ _
    · rename_i e he
      exact Throws.throw (show e ≠ Exc.badAlloc from throws_vset (Q := (· ≠ Exc.badAlloc)) _ _ _ e he)
    · exact Throws.ub _

theorem tame_normalize (s : GSet α) : Tame s.normalize.1 := by
  unfold GSet.normalize Dataset.normalize
  dsimp only
  split
  · exact Throws.throw (by simp)
  · split
    · exact Throws.ok _
    · rename_i e he
      refine Throws.throw (show e ≠ Exc.badAlloc from ?_)
      revert he
      refine (?_ : Throws (· ≠ Exc.badAlloc) _) e
      unfold mapRows scanRow forInt2
      tame
    · exact Throws.ub _

theorem tame_groupAll (env : Env α) (n : String) (th : α) (s : GSet α) : Tame (s.groupAllLengths env n th).1 := by
  have h := tame_globalGroup env.ratio s.reset.ds n th env.doLog GlobalSpace.fresh
  unfold GSet.groupAllLengths
  split
  · exact Throws.throw (by simp)
  · dsimp only
    split
    · exact Throws.ok _
    · exact h

theorem tame_loadGroup (io : NumIO α) (g : Group α) (mm : List Membership) (s : Stream) :
    Tame (g.loadGroup io mm s) := by
  unfold Group.loadGroup Group.addMember
  tame

theorem tame_localLoad (io : NumIO α) (ls : LocalSpace α) (s : Stream) : Tame (ls.loadGroups io s) := by
  unfold LocalSpace.loadGroups
  repeat' first
    | exact tame_loadGroup _ _ _ _
    | tame_step

theorem tame_loadGroups (env : Env α) (f : Option Text) (s : GSet α) : Tame (s.loadGroups env f).1 := by
  unfold GSet.loadGroups
  split
  · exact Throws.throw (by simp)
  · dsimp only
    split
    · exact Throws.ub _
    split
    · exact Throws.throw (by simp)
    split
    · exact Throws.ub _
    split
    · exact Throws.throw (by simp)
    split
    · exact Throws.ub _
    split
    · exact Throws.throw (by simp)
    unfold GlobalSpace.loadGroups
    dsimp only
    split
    · rename_i e he
      exact Throws.throw (show e ≠ Exc.badAlloc from tame_getDistance _ _ he)
    · exact Throws.ub _
    · split
      · exact Throws.throw (by simp)
      · split
        · split
          · exact Throws.ok _
          · rename_i e he
            refine Throws.throw (show e ≠ Exc.badAlloc from ?_)
            revert he
            refine (?_ : Throws (· ≠ Exc.badAlloc) _) e
            repeat' first
              | exact tame_new _ _
              | exact tame_localLoad _ _ _
              | tame_step
          · exact Throws.ub _
        · exact Throws.ub _

theorem tame_saveMembers (g : Group α) (mm : List Membership) : ∀ (n : Nat) (c : Coord), Tame (saveMembersLoop g mm n c)
  | 0, c => by
    unfold saveMembersLoop
    tame
  | n + 1, c => by
    have ih := tame_saveMembers g mm n
    unfold saveMembersLoop
    repeat' first
      | exact ih _
      | tame_step

theorem tame_saveList (io : NumIO α) (ds : Dataset α) (mm : List Membership) (b : Bool) : ∀ (gs : List (Group α)),
    Tame (saveGroupList io ds mm b gs)
  | [] => by
    unfold saveGroupList
    tame
  | g :: gs => by
    have ih := tame_saveList io ds mm b gs
    unfold saveGroupList Group.saveGroup
    repeat' first
      | exact ih
      | exact tame_saveMembers _ _ _ _
      | tame_step

theorem tame_saveLocals (io : NumIO α) (ds : Dataset α) (b : Bool) : ∀ (l : List (Option (LocalSpace α))),
    Tame (saveLocals io ds b l)
  | [] => by
    unfold saveLocals
    tame
  | none :: _ => by
    unfold saveLocals
    tame
  | some ls :: l => by
    have ih := tame_saveLocals io ds b l
    unfold saveLocals LocalSpace.saveGroups
    repeat' first
      | exact ih
      | exact tame_saveList _ _ _ _ _
      | tame_step

theorem tame_saveGroups (env : Env α) (c b : Bool) (s : GSet α) : Tame (s.saveGroups env c b) := by
  unfold GSet.saveGroups GlobalSpace.saveGroups
  repeat' first
    | exact tame_saveLocals _ _ _ _
    | tame_step

theorem tame_match (env : Env α) (q : Series α) (s : GSet α) : Tame (s.getBestMatch env q).1 := by
  unfold GSet.getBestMatch
  split
  · exact Throws.throw (by simp)
  · split
    · exact Throws.ok _
    · rename_i e he
      exact Throws.throw (show e ≠ Exc.badAlloc from tame_bestMatch _ _ _ _ _ e he)
    · exact Throws.ub _

theorem Tame.map {β γ : Type} {r : Res β} (h : Tame r) (f : β → γ) : Tame (r.map f) := by
  intro e he
  rcases r with x | x | x
  · simp [Res.map] at he
  · simp only [Res.map, Res.throw.injEq] at he
    subst he
    exact h _ rfl
  · simp [Res.map] at he

theorem tame_on {β : Type} (a : Api α) (i : Int) {f : GSet α → Eff (GSet α) β} (h : ∀ s, Tame (f s).1) :
    Tame (a.on i f).1 := by
  rcases hd : dataset a i with _ | s
  · rw [on_none hd]
    exact Throws.throw (by simp)
  · rw [on_some hd]
    exact h s

/-- The only way to run out of memory: PAA on a dataset whose series have negative length. -/
theorem step_badAlloc (env : Env α) (a : Api α) (c : Call α) (h : (a.step env c).1 = .throw .badAlloc) :
    ∃ i n g, c = .paa i n ∧ dataset a i = some g ∧ 0 < n ∧ g.ds.itemCount * calcPAALength g.ds.itemLength n < 0 := by
  have contra : Tame (a.step env c).1 → ∃ i n g, c = .paa i n ∧ dataset a i = some g ∧ 0 < n ∧
      g.ds.itemCount * calcPAALength g.ds.itemLength n < 0 := fun ht => absurd rfl (ht _ h)
  cases c with
  | load f p m sc seps => exact contra ((tame_load env a f p m sc seps).map _)
  | save i c p s =>
    refine contra (Tame.map ?_ _)
    unfold Api.saveDataset Dataset.saveData Dataset.saveText
    repeat' first
      | exact tame_get _ _
      | tame_step
  | unload i =>
    refine contra (Tame.map (r := (a.unloadDataset i).1) ?_ _)
    unfold Api.unloadDataset
    have := tame_get a i
    split
    · rename_i e he
      exact Throws.throw (show e ≠ Exc.badAlloc from this e he)
    · exact Throws.ub _
    · exact Throws.ok _
  | unloadAll => exact contra (Throws.ok _)
  | info i => exact contra ((tame_info a i).map _)
  | allInfo =>
    refine contra (Tame.map ?_ _)
    rw [allInfo_spec]
    exact Throws.ok _
  | normalize i => exact contra ((tame_on a i tame_normalize).map _)
  | group i st => exact contra ((tame_on a i (tame_groupAll { env with ratio := a.ratio } "euclidean" st)).map Ans.int)
  | saveGroup i c s =>
    refine contra (Tame.map ?_ _)
    unfold Api.saveGroup
    exact (tame_get a i).bind fun _ _ => tame_saveGroups _ _ _ _
  | loadGroup i f => exact contra ((tame_on a i (tame_loadGroups { env with ratio := a.ratio } f)).map Ans.int)
  | setRatio r => exact contra (Throws.ok _)
  | bestMatch r q i s e =>
    refine contra (Tame.map (r := (a.getBestMatch env r q i s e).1) ?_ _)
    unfold Api.getBestMatch
    dsimp only
    split
    · rename_i e he
      refine Throws.throw (show e ≠ Exc.badAlloc from ?_)
      revert he
      refine (?_ : Throws (· ≠ Exc.badAlloc) _) e
      repeat' first
        | exact tame_get _ _
        | tame_step
    · exact Throws.ub _
    · exact tame_on _ _ (tame_match _ _)
  | paa i n =>
    rcases hd : dataset a i with _ | g
    · simp only [Api.step, Api.PAA, on_none hd, Res.map] at h
      simp at h
    · refine ⟨i, n, g, rfl, hd, ?_⟩
      have hp : (GSet.PAA env n g).1 = .throw .badAlloc := by
        simp only [Api.step, Api.PAA, on_some hd] at h
        rcases hx : (GSet.PAA env n g).1 with x | x | x
        · rw [hx] at h
          have := (tame_info (a.put i (GSet.PAA env n g).2) i).map (Ans.info (α := α))
          exact absurd rfl (this _ h)
        · rw [hx] at h
          simpa [Res.map] using h
        · rw [hx] at h
          simp [Res.map] at h
      unfold GSet.PAA Dataset.PAA at hp
      dsimp only at hp
      split at hp
      · simp at hp
      · rename_i h0
        split at hp
        · rename_i h1
          exact ⟨by omega, h1⟩
        · exfalso
          split at hp
          · simp at hp
          · rename_i e he
            simp only [Res.throw.injEq] at hp
            subst hp
            have : Tame (forInt 0 g.ds.itemCount (List.replicate (g.ds.itemCount * calcPAALength g.ds.itemLength n).toNat env.junk)
                fun ts nb => do
                  let b ← g.ds.buf
                  doPAA b (ts * g.ds.itemLength) nb (ts * calcPAALength g.ds.itemLength n) g.ds.itemLength n) := by
              unfold doPAA
              tame
            exact absurd rfl (this _ he)
          · simp at hp

/-! ## Calls that throw leave the data alone -/

theorem on_throw_data {β : Type} {a : Api α} {i : Int} {f : GSet α → Eff (GSet α) β} {e : Exc}
    (hf : ∀ s e, (f s).1 = .throw e → (f s).2.ds = s.ds) (h : (a.on i f).1 = .throw e) :
    (∀ j, dataOf (a.on i f).2 j = dataOf a j) ∧ (a.on i f).2.count = a.count := by
  rcases hd : dataset a i with _ | s
  · rw [on_none hd]
    exact ⟨fun _ => rfl, rfl⟩
  · rw [on_some hd] at h ⊢
    refine ⟨?_, rfl⟩
    intro j
    unfold dataOf
    rw [dataset_put (by simp [hd])]
    by_cases ej : j = i
    · subst ej
      rw [if_pos rfl, hd]
      simp only [Option.map_some, hf s e h]
    · rw [if_neg ej]

theorem step_throw_data (env : Env α) (a : Api α) (c : Call α) (e : Exc) (h : (a.step env c).1 = .throw e) :
    (∀ j, dataOf (a.step env c).2 j = dataOf a j) ∧ (a.step env c).2.count = a.count := by
  have hmap : ∀ {β γ : Type} {r : Res β} {f : β → γ}, r.map f = .throw e → r = .throw e := by
    intro β γ r f hr
    rcases r with x | x | x
    · simp [Res.map] at hr
    · simpa [Res.map] using hr
    · simp [Res.map] at hr
  cases c with
  | load f p m sc seps =>
    simp only [Api.step] at h ⊢
    rcases hl : a.loadDataset env f p m sc seps with ⟨r, a'⟩
    rw [hl] at h
    rcases load_shape hl with ⟨_, hb, _⟩ | ⟨id, g, _, _, hr, _⟩
    · exact ⟨fun _ => by rw [hb], by rw [hb]⟩
    · rw [hr] at h
      simp [Res.map] at h
  | save i c p s => exact ⟨fun _ => rfl, rfl⟩
  | unload i =>
    by_cases hd : dataset a i = none
    · simp only [Api.step, Api.unloadDataset, get_none hd]
      exact ⟨fun _ => trivial, trivial⟩
    · simp only [Api.step, (unload_shape hd).1, Res.map] at h
      simp at h
  | unloadAll => simp [Api.step] at h
  | info i => exact ⟨fun _ => rfl, rfl⟩
  | allInfo => exact ⟨fun _ => rfl, rfl⟩
  | normalize i =>
    refine on_throw_data (f := GSet.normalize) ?_ (hmap h)
    intro s e he
    unfold GSet.normalize Dataset.normalize at he ⊢
    dsimp only at he ⊢
    split at he
    · rename_i h1
      rw [if_pos h1]
    · rename_i h1
      rw [if_neg h1]
      split at he
      · simp at he
      · rfl
      · simp at he
  | group i st =>
    refine on_throw_data (f := GSet.groupAllLengths { env with ratio := a.ratio } "euclidean" st) ?_
      (hmap (f := Ans.int) h)
    intro s e he
    unfold GSet.groupAllLengths
    split
    · rfl
    · dsimp only
      split <;> rfl
  | saveGroup i c s => exact ⟨fun _ => rfl, rfl⟩
  | loadGroup i f =>
    refine on_throw_data (f := GSet.loadGroups { env with ratio := a.ratio } f) ?_ (hmap (f := Ans.int) h)
    intro s e he
    unfold GSet.loadGroups
    split
    · rfl
    · dsimp only
      repeat' split
      all_goals rfl
  | setRatio r => simp [Api.step] at h
  | bestMatch r q i s x =>
    simp only [Api.step] at h ⊢
    have h := hmap h
    unfold Api.getBestMatch at h ⊢
    dsimp only at h ⊢
    split at h
    · exact ⟨fun _ => rfl, rfl⟩
    · simp at h
    · refine on_throw_data ?_ h
      intro s e he
      unfold GSet.getBestMatch
      split
      · rfl
      · split <;> rfl
  | paa i n =>
    simp only [Api.step] at h ⊢
    have h := hmap h
    rcases hd : dataset a i with _ | g
    · simp only [Api.PAA, on_none hd]
      exact ⟨fun _ => trivial, trivial⟩
    · unfold Api.PAA at h ⊢
      rcases hx : a.on i (GSet.PAA env n) with ⟨r, a'⟩
      rw [hx] at h
      rcases r with x | x | x
      · exfalso
        dsimp only at h
        have : dataset a' i ≠ none := by
          have e2 : a' = (a.on i (GSet.PAA env n)).2 := by rw [hx]
          rw [e2, on_some hd, dataset_put (by simp [hd]), if_pos rfl]
          simp
        obtain ⟨s, hs⟩ := Option.ne_none_iff_exists'.mp this
        unfold Api.getDatasetInfo at h
        rw [get_some hs] at h
        simp at h
      · have := on_throw_data (a := a) (i := i) (f := GSet.PAA env n) (e := x) ?_ (by rw [hx])
        · rw [hx] at this
          exact this
        · intro s e he
          unfold GSet.PAA Dataset.PAA at he ⊢
          dsimp only at he ⊢
          split at he
          · rename_i h1
            rw [if_pos h1]
          · rename_i h1
            rw [if_neg h1]
            split at he
            · rename_i h2
              rw [if_pos h2]
            · rename_i h2
              rw [if_neg h2]
              split at he
              · simp at he
              · rfl
              · simp at he
      · simp at h

/-! ## Argument parsing -/

theorem arg_ok {args : List Text} {k : Int} (h0 : 0 ≤ k) (h1 : k < len args) : ∃ w ∈ args, arg args k = .ok w := by
  unfold arg vget
  simp only [len] at h1
  have hl : k.toNat < args.length := by omega
  rw [if_pos h0, List.getElem?_eq_getElem hl]
  exact ⟨_, List.getElem_mem hl, rfl⟩

/-- Not undefined. -/
def Defined {β : Type} (r : Res β) : Prop := ∀ w, r ≠ .ub w

theorem Defined.bind {β γ : Type} {r : Res β} {f : β → Res γ} (h : Defined r) (hf : ∀ b, r = .ok b → Defined (f b)) :
    Defined (r >>= f) := by
  intro w he
  rcases r with b | e | w'
  · exact hf b rfl w he
  · have h' : Res.throw (α := γ) e = .ub w := he
    simp at h'
  · exact h w' rfl

theorem Defined.pure {β : Type} (b : β) : Defined (Pure.pure b : Res β) := by
  intro w he
  simp at he

theorem defined_stoi (t : Text) : Defined (stoi t) := by
  unfold stoi
  intro w
  dsimp only
  repeat' split
  all_goals simp

theorem tame_stoi (t : Text) : Tame (stoi t) := by
  unfold stoi
  tame

theorem defined_stod (env : Env α) (t : Text) : Defined (cliStod env t) := by
  unfold cliStod
  intro w
  split <;> simp

theorem tame_stod (env : Env α) (t : Text) : Tame (cliStod env t) := by
  unfold cliStod
  tame

theorem defined_arg {args : List Text} {k : Int} (h0 : 0 ≤ k) (h1 : k < len args) : Defined (arg args k) := by
  obtain ⟨w, _, e⟩ := arg_ok h0 h1
  intro w' he
  rw [e] at he
  simp at he

theorem tame_arg (args : List Text) (k : Int) : Tame (arg args k) := throws_vget _ _

macro_rules | `(tactic| tame_leaf) => `(tactic| with_reducible exact tame_stoi _)
macro_rules | `(tactic| tame_leaf) => `(tactic| with_reducible exact tame_stod _ _)
macro_rules | `(tactic| tame_leaf) => `(tactic| with_reducible exact tame_arg _ _)

/-- One step of a proof that nothing undefined happens. -/
macro "defined_step" : tactic => `(tactic| first
  | (with_reducible exact Defined.pure _)
  | (with_reducible exact defined_stoi _)
  | (with_reducible exact defined_stod _ _)
  | (with_reducible exact defined_arg (by omega) (by omega))
  | (with_reducible refine Defined.bind ?_ ?_)
  | split
  | (with_reducible intro _)
  | dsimp only)

macro "defined" : tactic => `(tactic| repeat' defined_step)

theorem defined_head {args : List Text} (h : ∀ w ∈ args, w ≠ []) {k : Int} {w : Text} (e : arg args k = .ok w) :
    Defined (vget w 0) := by
  have hm : w ∈ args := by
    unfold arg vget at e
    split at e
    · split at e
      · rename_i h'
        simp only [Res.ok.injEq] at e
        subst e
        exact List.mem_of_getElem? h'
      · simp at e
    · simp at e
  rcases w with _ | ⟨c, w⟩
  · exact absurd rfl (h _ hm)
  · intro x hx
    simp [vget] at hx

/-- What a computation returns, if it returns. -/
def Yields {β : Type} (P : β → Prop) (r : Res β) : Prop := ∀ b, r = .ok b → P b

theorem Yields.bind {β γ : Type} {P : γ → Prop} {r : Res β} {f : β → Res γ} (hf : ∀ b, Yields P (f b)) :
    Yields P (r >>= f) := by
  intro c hc
  obtain ⟨b, _, h2⟩ := Res.bind_eq_ok.mp hc
  exact hf b c h2

theorem Yields.pure {β : Type} {P : β → Prop} {b : β} (h : P b) : Yields P (Pure.pure b) := by
  intro c hc
  simp only [Res.pure_eq, Res.ok.injEq] at hc
  exact hc ▸ h

macro "yields" : tactic => `(tactic| repeat' first
  | (with_reducible exact Yields.pure (by simp))
  | (with_reducible refine Yields.bind ?_)
  | split
  | (with_reducible intro _)
  | dsimp only)

/-- A `match` command with four arguments, all numbers: `match db q index start`. -/
def FiveMatch (args : List Text) : Prop :=
  len args = 5 ∧ args.head? = some "match".toList ∧ ∀ k : Int, 1 ≤ k → k ≤ 4 → ∃ w z, arg args k = .ok w ∧ stoi w = .ok z

theorem if_elim {β : Type} {P : β → Prop} {c : Prop} [Decidable c] {x y : β} (h1 : c → P x) (h2 : ¬ c → P y) :
    P (if c then x else y) := by
  split
  · exact h1 ‹_›
  · exact h2 ‹_›

/-- What executing a command amounts to: nothing but perhaps switching the timer, an error while reading the arguments, one
API call, or the undefined `match`. -/
def Amounts (env : Env α) (s : Session α) (name : Text) (args : List Text) (R : Eff (Session α) Unit) : Prop :=
  (∃ t, R = (.ok (), { s with timer := t })) ∨ (∃ e, e ≠ Exc.badAlloc ∧ R = (.throw e, s)) ∨
  (∃ c, R = s.call env c ∧ ∀ i n, c = .paa i n → name = "paa".toList) ∨ (FiveMatch args ∧ ∃ w, R = (.ub w, s))

theorem doCommand_cases (env : Env α) (fs : FS) (s : Session α) (name : Text) (args : List Text)
    (hargs : ∀ w ∈ args, w ≠ []) (hhead : args.head? = some name) :
    Amounts env s name args (doCommand env fs s name args) := by
  have key : ∀ (lo hi : Int) (pre : Res (Call α)), Tame pre → (¬ badArgs args lo hi → Defined pre) →
      (∀ i n, pre = .ok (.paa i n) → name = "paa".toList) →
      Amounts env s name args (if badArgs args lo hi then (.ok (), s) else s.callWith env pre) := by
    intro lo hi pre ht hu hp
    by_cases hb : badArgs args lo hi
    · left
      rw [if_pos hb]
      exact ⟨s.timer, rfl⟩
    · rw [if_neg hb]
      rcases pre with c | e | w
      · right; right; left
        exact ⟨c, rfl, fun i n e => hp i n (by rw [e])⟩
      · right; left
        exact ⟨e, ht e rfl, rfl⟩
      · exact absurd rfl (hu hb w)
  have bad : ∀ {lo hi : Int}, ¬ badArgs args lo hi → lo ≤ len args ∧ len args ≤ hi := by
    intro lo hi h
    unfold badArgs at h
    simp only [Bool.or_eq_true, decide_eq_true_eq, not_or, not_lt, gt_iff_lt] at h
    exact h
  have npaa : ∀ (pre : Res (Call α)), Yields (fun c => ∀ i n, c ≠ .paa i n) pre → ∀ i n, pre = .ok (.paa i n) →
      name = "paa".toList := fun pre h i n e => absurd rfl (h _ e i n)
  unfold doCommand
  dsimp only
  refine if_elim ?_ ?_
  · intro _
    refine key _ _ _ ?_ ?_ ?_
    · unfold cmdLoad
      tame
    · intro hb
      obtain ⟨h1, h2⟩ := bad hb
      unfold cmdLoad
      defined
    · refine npaa _ ?_
      unfold cmdLoad
      yields
  intro _
  refine if_elim ?_ ?_
  · intro _
    refine key _ _ _ ?_ ?_ ?_
    · unfold cmdSave
      tame
    · intro hb
      obtain ⟨h1, h2⟩ := bad hb
      unfold cmdSave
      repeat' first
        | exact defined_head hargs (by assumption)
        | defined_step
    · refine npaa _ ?_
      unfold cmdSave
      yields
  intro _
  refine if_elim ?_ ?_
  · intro _
    refine key _ _ _ ?_ ?_ ?_
    · unfold cmdUnload
      tame
    · intro hb
      obtain ⟨h1, h2⟩ := bad hb
      unfold cmdUnload
      defined
    · refine npaa _ ?_
      unfold cmdUnload
      yields
  intro _
  refine if_elim ?_ ?_
  · intro _
    split
    · exact Or.inl ⟨s.timer, rfl⟩
    · split
      · exact Or.inr (Or.inr (Or.inl ⟨.allInfo, rfl, fun i n e => by simp at e⟩))
      · exact Or.inl ⟨s.timer, rfl⟩
  intro _
  refine if_elim ?_ ?_
  · intro _
    split
    · exact Or.inl ⟨s.timer, rfl⟩
    split
    · exact Or.inl ⟨s.timer, rfl⟩
    split
    · exact Or.inl ⟨true, rfl⟩
    split
    · exact Or.inl ⟨false, rfl⟩
    · exact Or.inl ⟨s.timer, rfl⟩
  intro _
  refine if_elim ?_ ?_
  · intro _
    refine key _ _ _ ?_ ?_ ?_
    · unfold cmdGroup
      tame
    · intro hb
      obtain ⟨h1, h2⟩ := bad hb
      unfold cmdGroup
      defined
    · refine npaa _ ?_
      unfold cmdGroup
      yields
  intro _
  refine if_elim ?_ ?_
  · intro _
    refine key _ _ _ ?_ ?_ ?_
    · unfold cmdSaveGroup
      tame
    · intro hb
      obtain ⟨h1, h2⟩ := bad hb
      unfold cmdSaveGroup
      defined
    · refine npaa _ ?_
      unfold cmdSaveGroup
      yields
  intro _
  refine if_elim ?_ ?_
  · intro _
    refine key _ _ _ ?_ ?_ ?_
    · unfold cmdLoadGroup
      tame
    · intro hb
      obtain ⟨h1, h2⟩ := bad hb
      unfold cmdLoadGroup
      defined
    · refine npaa _ ?_
      unfold cmdLoadGroup
      yields
  intro _
  refine if_elim ?_ ?_
  · intro _
    refine key _ _ _ ?_ ?_ ?_
    · unfold cmdNormalize
      tame
    · intro hb
      obtain ⟨h1, h2⟩ := bad hb
      unfold cmdNormalize
      defined
    · refine npaa _ ?_
      unfold cmdNormalize
      yields
  intro _
  refine if_elim ?_ ?_
  · intro _
    refine key _ _ _ ?_ ?_ ?_
    · unfold cmdPAA
      tame
    · intro hb
      obtain ⟨h1, h2⟩ := bad hb
      unfold cmdPAA
      defined
    · intro _ _ _
      assumption
  intro _
  refine if_elim ?_ ?_
  · intro hname
    by_cases h5 : len args = 5
    · rw [if_neg (by unfold badArgs; simp [h5])]
      obtain ⟨w1, _, e1⟩ := arg_ok (args := args) (k := 1) (by omega) (by omega)
      obtain ⟨w2, _, e2⟩ := arg_ok (args := args) (k := 2) (by omega) (by omega)
      obtain ⟨w3, _, e3⟩ := arg_ok (args := args) (k := 3) (by omega) (by omega)
      obtain ⟨w4, _, e4⟩ := arg_ok (args := args) (k := 4) (by omega) (by omega)
      have e5 : arg args 5 = .ub "read out of bounds" := by
        unfold arg vget
        simp only [len] at h5
        rw [if_pos (by omega), List.getElem?_eq_none (by omega)]
      have ht : Tame (cmdMatch args : Res (Call α)) := by
        unfold cmdMatch
        tame
      rcases hpre : (cmdMatch args : Res (Call α)) with c | e | w
      · exfalso
        unfold cmdMatch at hpre
        rw [e1, e2, e3] at hpre
        simp only [Res.bind_ok, h5, show (5 : Int) > 4 by omega, if_true, e4, e5, Res.bind_ub] at hpre
        rcases hs1 : stoi w1 with x | x | x
        · rcases hs2 : stoi w2 with y | y | y
          · rcases hs3 : stoi w3 with z | z | z
            · rcases hs4 : stoi w4 with t | t | t
              · simp [hs1, hs2, hs3, hs4] at hpre
              · simp [hs1, hs2, hs3, hs4] at hpre
              · simp [hs1, hs2, hs3, hs4] at hpre
            · simp [hs1, hs2, hs3] at hpre
            · simp [hs1, hs2, hs3] at hpre
          · simp [hs1, hs2] at hpre
          · simp [hs1, hs2] at hpre
        · simp [hs1] at hpre
        · simp [hs1] at hpre
      · exact Or.inr (Or.inl ⟨e, ht e hpre, rfl⟩)
      · refine Or.inr (Or.inr (Or.inr ⟨⟨h5, by rw [hhead, hname], ?_⟩, w, rfl⟩))
        unfold cmdMatch at hpre
        rw [e1, e2, e3] at hpre
        simp only [Res.bind_ok, h5, show (5 : Int) > 4 by omega, if_true, e4, e5, Res.bind_ub] at hpre
        have hd := fun t w => defined_stoi t w
        intro k k1 k2
        have hk : k = 1 ∨ k = 2 ∨ k = 3 ∨ k = 4 := by omega
        rcases hs1 : stoi w1 with x | x | x
        · rcases hs2 : stoi w2 with y | y | y
          · rcases hs3 : stoi w3 with z | z | z
            · rcases hs4 : stoi w4 with t | t | t
              · rcases hk with rfl | rfl | rfl | rfl
                · exact ⟨w1, x, e1, hs1⟩
                · exact ⟨w2, y, e2, hs2⟩
                · exact ⟨w3, z, e3, hs3⟩
                · exact ⟨w4, t, e4, hs4⟩
              · simp [hs1, hs2, hs3, hs4] at hpre
              · exact absurd hs4 (hd _ _)
            · simp [hs1, hs2, hs3] at hpre
            · exact absurd hs3 (hd _ _)
          · simp [hs1, hs2] at hpre
          · exact absurd hs2 (hd _ _)
        · simp [hs1] at hpre
        · exact absurd hs1 (hd _ _)
    · refine key _ _ _ ?_ ?_ ?_
      · unfold cmdMatch
        tame
      · intro hb
        obtain ⟨h1, h2⟩ := bad hb
        unfold cmdMatch
        defined
      · refine npaa _ ?_
        unfold cmdMatch
        yields
  · intro _
    exact Or.inl ⟨s.timer, rfl⟩

end Onex
