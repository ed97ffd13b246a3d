import Verif.Spec.Command
import Verif.Proofs.CliArgs

/-!
# Lines and the calls they make
-/

namespace Onex

open Spec

set_option linter.unusedSectionVars false

variable {α : Type} [DataT α]

theorem splitInt_sign {sgn u : Text} (hs : sgn = [] ∨ sgn = ['-'] ∨ sgn = ['+']) (hd : ∃ c ∈ u.head?, c.isDigit) :
    splitInt (sgn ++ u) = (decide (sgn = ['-']), u.takeWhile Char.isDigit, u.dropWhile Char.isDigit) := by
  rcases hs with rfl | rfl | rfl
  · obtain ⟨c, hc, hd⟩ := hd
    rcases u with _ | ⟨x, u⟩
    · simp at hc
    simp only [List.head?_cons, Option.mem_def, Option.some.injEq] at hc
    subst hc
    have h1 : x ≠ '-' := by rintro rfl; revert hd; decide
    have h2 : x ≠ '+' := by rintro rfl; revert hd; decide
    rcases splitInt_cases (x :: u) with ⟨v, e, _⟩ | ⟨v, e, _⟩ | e
    · simp only [List.cons.injEq] at e
      exact absurd e.1 h1
    · simp only [List.cons.injEq] at e
      exact absurd e.1 h2
    · rw [List.nil_append, e]
      rfl
  · rcases splitInt_cases (['-'] ++ u) with ⟨v, e, e'⟩ | ⟨v, e, _⟩ | e
    · simp only [List.cons_append, List.nil_append, List.cons.injEq, true_and] at e
      subst e
      rw [e']
      rfl
    · simp at e
    · rfl
  · rcases splitInt_cases (['+'] ++ u) with ⟨v, e, e'⟩ | ⟨v, e, e'⟩ | e
    · simp at e
    · simp only [List.cons_append, List.nil_append, List.cons.injEq, true_and] at e
      subst e
      rw [e']
      rfl
    · rfl

theorem stoi_of_reads {t : Text} {z : Int} (h : ReadsInt t z) : stoi t = .ok z := by
  obtain ⟨sp, sgn, ds, rest, rfl, hsp, hs, hne, hd, hr, hz, h1, h2⟩ := h
  obtain ⟨d, ds', rfl⟩ := List.exists_cons_of_ne_nil hne
  have hd0 : d.isDigit = true := hd d (by simp)
  have e1 : (sp ++ sgn ++ (d :: ds') ++ rest).dropWhile isSpace = sgn ++ (d :: ds' ++ rest) := by
    rw [List.append_assoc, List.append_assoc, List.dropWhile_append_of_pos]
    · rcases hs with rfl | rfl | rfl
      · simp [digit_not_space hd0]
      · simp [isSpace]
      · simp [isSpace]
    · intro c hc
      have := hsp c hc
      simpa [isSpace, or_assoc] using this
  have e2 : (d :: ds' ++ rest).takeWhile Char.isDigit = d :: ds' := by
    rw [List.takeWhile_append_of_pos (fun c hc => hd c hc)]
    rcases rest with _ | ⟨r, rest⟩
    · simp
    · have : ¬ r.isDigit = true := hr r (by simp)
      simp [this]
  unfold stoi
  rw [e1, splitInt_sign hs ⟨d, by simp, hd0⟩]
  dsimp only
  rw [e2, if_neg (by simp), digitsVal_eq]
  have e3 : (if decide (sgn = ['-']) = true then -((Nat.ofDigitChars 10 (d :: ds') 0 : ℕ) : Int) else (Nat.ofDigitChars 10 (d :: ds') 0 : ℕ)) = z := by
    rw [hz]
    by_cases h : sgn = ['-'] <;> simp [h]
  rw [e3, if_pos (by simp [inIntRange, h1, h2])]

theorem reads_iff {t : Text} {z : Int} : ReadsInt t z ↔ stoi t = .ok z := ⟨stoi_of_reads, reads_of_stoi⟩

theorem reads_unique {t : Text} {z z' : Int} (h : ReadsInt t z) (h' : ReadsInt t z') : z = z' := by
  have := (stoi_of_reads h).symm.trans (stoi_of_reads h')
  simpa using this

theorem stod_ok {env : Env α} {t : Text} {x : α} : cliStod env t = .ok x ↔ env.stod t = .val x := by
  unfold cliStod
  split <;> simp_all

/-! ## Evaluating the arguments -/

theorem cmdLoad2 (fs : FS) (l p : Text) : (cmdLoad fs [l, p] : Res (Call α)) = .ok (.load (fs.read p) (String.ofList p) 0 0 [' ']) := rfl
theorem cmdLoad3 (fs : FS) (l p n : Text) : (cmdLoad fs [l, p, n] : Res (Call α)) =
    stoi n >>= fun r => .ok (.load (fs.read p) (String.ofList p) r 0 [' ']) := rfl
theorem cmdLoad4 (fs : FS) (l p n c : Text) : (cmdLoad fs [l, p, n, c] : Res (Call α)) =
    stoi n >>= fun r => stoi c >>= fun k => .ok (.load (fs.read p) (String.ofList p) r k [' ']) := rfl
theorem cmdLoad5 (fs : FS) (l p n c w : Text) : (cmdLoad fs [l, p, n, c, w] : Res (Call α)) =
    stoi n >>= fun r => stoi c >>= fun k => .ok (.load (fs.read p) (String.ofList p) r k w) := rfl
theorem cmdSave3 (fs : FS) (l i p : Text) : (cmdSave fs [l, i, p] : Res (Call α)) =
    stoi i >>= fun k => .ok (.save k (fs.canOpen p) (String.ofList p) ' ') := rfl
theorem cmdSave4 (fs : FS) (l i p : Text) (c : Char) (w : Text) : (cmdSave fs [l, i, p, c :: w] : Res (Call α)) =
    stoi i >>= fun k => .ok (.save k (fs.canOpen p) (String.ofList p) (if c ≠ '\n' then c else ' ')) := rfl
theorem cmdUnload2 (l i : Text) (more : List Text) : (cmdUnload (l :: i :: more) : Res (Call α)) =
    stoi i >>= fun k => .ok (.unload k) := by
  unfold cmdUnload arg vget
  simp
theorem cmdGroup3 (env : Env α) (l i t : Text) : (cmdGroup env [l, i, t] : Res (Call α)) =
    stoi i >>= fun k => cliStod env t >>= fun x => .ok (.group k x) := rfl
theorem cmdSaveGroup3 (fs : FS) (l i p : Text) : (cmdSaveGroup fs [l, i, p] : Res (Call α)) =
    stoi i >>= fun k => .ok (.saveGroup k (fs.canOpen p) false) := rfl
theorem cmdSaveGroup4 (fs : FS) (l i p o : Text) : (cmdSaveGroup fs [l, i, p, o] : Res (Call α)) =
    stoi i >>= fun k => stoi o >>= fun z => .ok (.saveGroup k (fs.canOpen p) (z ≠ 0)) := rfl
theorem cmdLoadGroup3 (fs : FS) (l i p : Text) : (cmdLoadGroup fs [l, i, p] : Res (Call α)) =
    stoi i >>= fun k => .ok (.loadGroup k (fs.read p)) := rfl
theorem cmdNormalize2 (l i : Text) : (cmdNormalize [l, i] : Res (Call α)) = stoi i >>= fun k => .ok (.normalize k) := rfl
theorem cmdPAA3 (l i n : Text) : (cmdPAA [l, i, n] : Res (Call α)) =
    stoi i >>= fun k => stoi n >>= fun z => .ok (.paa k z) := rfl
theorem cmdMatch4 (l d q t : Text) : (cmdMatch [l, d, q, t] : Res (Call α)) =
    stoi d >>= fun a => stoi q >>= fun b => stoi t >>= fun c => .ok (.bestMatch a b c (-1) (-1)) := rfl
theorem cmdMatch5 (l d q t s : Text) : (cmdMatch [l, d, q, t, s] : Res (Call α)) =
    stoi d >>= fun _ => stoi q >>= fun _ => stoi t >>= fun _ => stoi s >>= fun _ => .ub "read out of bounds" := rfl
theorem cmdMatch6 (l d q t s e : Text) : (cmdMatch [l, d, q, t, s, e] : Res (Call α)) =
    stoi d >>= fun a => stoi q >>= fun b => stoi t >>= fun c => stoi s >>= fun x => stoi e >>= fun y =>
      .ok (.bestMatch a b c x y) := rfl

/-! ## Lines that stand for a call -/

theorem Res.ok_bind' {β γ : Type} (b : β) (f : β → Res γ) : (Res.ok b >>= f) = f b := rfl

theorem means_run {env : Env α} {fs : FS} {args : List Text} {c : Call α} (h : Means env fs args c) (s : Session α) :
    ∃ name rest, args = name :: rest ∧ name.take 2 ≠ ['/', '/'] ∧ ¬ (name = "quit".toList ∨ name = "exit".toList) ∧
      name ≠ "help".toList ∧ doCommand env fs s name args = s.call env c := by
  cases h with
  | load p => exact ⟨_, _, rfl, by decide, by decide, by decide, rfl⟩
  | loadRows p n z hn =>
    refine ⟨_, _, rfl, by decide, by decide, by decide, ?_⟩
    show s.callWith env (cmdLoad fs _) = _
    rw [cmdLoad3, stoi_of_reads hn]
    rfl
  | loadColumns p n c z k hn hc =>
    refine ⟨_, _, rfl, by decide, by decide, by decide, ?_⟩
    show s.callWith env (cmdLoad fs _) = _
    rw [cmdLoad4, stoi_of_reads hn, stoi_of_reads hc]
    rfl
  | loadSeparators p n c w z k hn hc =>
    refine ⟨_, _, rfl, by decide, by decide, by decide, ?_⟩
    show s.callWith env (cmdLoad fs _) = _
    rw [cmdLoad5, stoi_of_reads hn, stoi_of_reads hc]
    rfl
  | save i p k hi =>
    refine ⟨_, _, rfl, by decide, by decide, by decide, ?_⟩
    show s.callWith env (cmdSave fs _) = _
    rw [cmdSave3, stoi_of_reads hi]
    rfl
  | saveSeparator i p k hi c w =>
    refine ⟨_, _, rfl, by decide, by decide, by decide, ?_⟩
    show s.callWith env (cmdSave fs _) = _
    rw [cmdSave4, stoi_of_reads hi, Res.ok_bind', ite_not]
    rfl
  | unload i more hm k hi =>
    refine ⟨_, _, rfl, by decide, by decide, by decide, ?_⟩
    show (if badArgs ("unload".toList :: i :: more) 2 5 then (.ok (), s) else s.callWith env (cmdUnload ("unload".toList :: i :: more))) = _
    rw [if_neg, cmdUnload2, stoi_of_reads hi]
    · rfl
    · intro hb
      unfold badArgs len at hb
      simp at hb
      omega
  | list => exact ⟨_, _, rfl, by decide, by decide, by decide, rfl⟩
  | group i t k hi x ht =>
    refine ⟨_, _, rfl, by decide, by decide, by decide, ?_⟩
    show s.callWith env (cmdGroup env _) = _
    rw [cmdGroup3, stoi_of_reads hi, stod_ok.mpr ht]
    rfl
  | saveGroup i p k hi =>
    refine ⟨_, _, rfl, by decide, by decide, by decide, ?_⟩
    show s.callWith env (cmdSaveGroup fs _) = _
    rw [cmdSaveGroup3, stoi_of_reads hi]
    rfl
  | saveGroupSizes i p o k z hi ho =>
    refine ⟨_, _, rfl, by decide, by decide, by decide, ?_⟩
    show s.callWith env (cmdSaveGroup fs _) = _
    rw [cmdSaveGroup4, stoi_of_reads hi, stoi_of_reads ho]
    rfl
  | loadGroup i p k hi =>
    refine ⟨_, _, rfl, by decide, by decide, by decide, ?_⟩
    show s.callWith env (cmdLoadGroup fs _) = _
    rw [cmdLoadGroup3, stoi_of_reads hi]
    rfl
  | normalize i k hi =>
    refine ⟨_, _, rfl, by decide, by decide, by decide, ?_⟩
    show s.callWith env (cmdNormalize _) = _
    rw [cmdNormalize2, stoi_of_reads hi]
    rfl
  | paa i n k z hi hn =>
    refine ⟨_, _, rfl, by decide, by decide, by decide, ?_⟩
    show s.callWith env (cmdPAA _) = _
    rw [cmdPAA3, stoi_of_reads hi, stoi_of_reads hn]
    rfl
  | «match» d q t a b c hd hq ht =>
    refine ⟨_, _, rfl, by decide, by decide, by decide, ?_⟩
    show s.callWith env (cmdMatch _) = _
    rw [cmdMatch4, stoi_of_reads hd, stoi_of_reads hq, stoi_of_reads ht]
    rfl
  | matchPart d q t b e a b' c x y hd hq ht hb he =>
    refine ⟨_, _, rfl, by decide, by decide, by decide, ?_⟩
    show s.callWith env (cmdMatch _) = _
    rw [cmdMatch6, stoi_of_reads hd, stoi_of_reads hq, stoi_of_reads ht, stoi_of_reads hb, stoi_of_reads he]
    rfl

theorem call_after (env : Env α) (fs : FS) (s : Session α) {line : Text} {name : Text} {rest : List Text}
    (hl : LineHas [' '] line (name :: rest)) (h1 : name.take 2 ≠ ['/', '/']) (h2 : ¬ (name = "quit".toList ∨ name = "exit".toList))
    (h3 : name ≠ "help".toList) {c : Call α} (h : doCommand env fs s name (name :: rest) = s.call env c) :
    mainStep env fs s line = afterCall s (s.api.step env c) := by
  unfold mainStep
  rw [processLine_words env fs s hl, if_neg h1, if_neg h2, if_neg h3, h]
  unfold Session.call
  rcases hx : s.api.step env c with ⟨r, a⟩
  rcases r with x | e | w
  · rfl
  · cases e <;> rfl
  · rfl

/-! ## Lines that do not -/

theorem ok_bind_inv {β γ : Type} {r : Res β} {f : β → Res γ} {c : γ} (h : r >>= f = .ok c) : ∃ b, r = .ok b ∧ f b = .ok c := by
  rcases r with b | e | w
  · exact ⟨b, rfl, h⟩
  · cases h
  · cases h

theorem means_load {env : Env α} {fs : FS} {rest : List Text} {c : Call α} (hb : ¬ badArgs ("load".toList :: rest) 2 5)
    (h : cmdLoad fs ("load".toList :: rest) = .ok c) : Means env fs ("load".toList :: rest) c := by
  obtain ⟨h1, h2⟩ := not_badArgs hb
  simp only [len, List.length_cons] at h1 h2
  rcases rest with _ | ⟨p, _ | ⟨n, _ | ⟨k, _ | ⟨w, _ | ⟨_, _⟩⟩⟩⟩⟩
  · simp at h1
  · rw [cmdLoad2, Res.ok.injEq] at h
    subst h
    exact .load p
  · rw [cmdLoad3] at h
    obtain ⟨z, e, h⟩ := ok_bind_inv h
    rw [Res.ok.injEq] at h
    subst h
    exact .loadRows p n z (reads_of_stoi e)
  · rw [cmdLoad4] at h
    obtain ⟨z, e, h⟩ := ok_bind_inv h
    obtain ⟨z', e', h⟩ := ok_bind_inv h
    rw [Res.ok.injEq] at h
    subst h
    exact .loadColumns p n k z z' (reads_of_stoi e) (reads_of_stoi e')
  · rw [cmdLoad5] at h
    obtain ⟨z, e, h⟩ := ok_bind_inv h
    obtain ⟨z', e', h⟩ := ok_bind_inv h
    rw [Res.ok.injEq] at h
    subst h
    exact .loadSeparators p n k w z z' (reads_of_stoi e) (reads_of_stoi e')
  · simp only [List.length_cons] at h2
    omega

theorem means_save {env : Env α} {fs : FS} {rest : List Text} {c : Call α} (hne : ∀ w ∈ rest, w ≠ [])
    (hb : ¬ badArgs ("save".toList :: rest) 3 4)
    (h : cmdSave fs ("save".toList :: rest) = .ok c) : Means env fs ("save".toList :: rest) c := by
  obtain ⟨h1, h2⟩ := not_badArgs hb
  simp only [len, List.length_cons] at h1 h2
  rcases rest with _ | ⟨p, _ | ⟨n, _ | ⟨k, _ | ⟨w, _⟩⟩⟩⟩
  · simp at h1
  · simp at h1
  · rw [cmdSave3] at h
    obtain ⟨z, e, h⟩ := ok_bind_inv h
    rw [Res.ok.injEq] at h
    subst h
    exact .save p n z (reads_of_stoi e)
  · rcases k with _ | ⟨k, ks⟩
    · exact absurd rfl (hne [] (by simp))
    rw [cmdSave4, ite_not] at h
    obtain ⟨z, e, h⟩ := ok_bind_inv h
    rw [Res.ok.injEq] at h
    subst h
    exact .saveSeparator p n z (reads_of_stoi e) k ks
  · simp only [List.length_cons] at h2
    omega

theorem means_unload {env : Env α} {fs : FS} {rest : List Text} {c : Call α} (hb : ¬ badArgs ("unload".toList :: rest) 2 5)
    (h : cmdUnload ("unload".toList :: rest) = .ok c) : Means env fs ("unload".toList :: rest) c := by
  obtain ⟨h1, h2⟩ := not_badArgs hb
  simp only [len, List.length_cons] at h1 h2
  rcases rest with _ | ⟨p, more⟩
  · simp at h1
  · rw [cmdUnload2] at h
    obtain ⟨z, e, h⟩ := ok_bind_inv h
    rw [Res.ok.injEq] at h
    subst h
    simp only [List.length_cons] at h2
    exact .unload p more (by omega) z (reads_of_stoi e)

theorem means_group {env : Env α} {fs : FS} {rest : List Text} {c : Call α} (hb : ¬ badArgs ("group".toList :: rest) 3 3)
    (h : cmdGroup env ("group".toList :: rest) = .ok c) : Means env fs ("group".toList :: rest) c := by
  obtain ⟨h1, h2⟩ := not_badArgs hb
  simp only [len, List.length_cons] at h1 h2
  rcases rest with _ | ⟨i, _ | ⟨t, _ | ⟨k, _⟩⟩⟩
  · simp at h1
  · simp at h1
  · rw [cmdGroup3] at h
    obtain ⟨z, e, h⟩ := ok_bind_inv h
    obtain ⟨x, e', h⟩ := ok_bind_inv h
    rw [Res.ok.injEq] at h
    subst h
    exact .group i t z (reads_of_stoi e) x (stod_ok.mp e')
  · simp only [List.length_cons] at h2
    omega

theorem means_saveGroup {env : Env α} {fs : FS} {rest : List Text} {c : Call α} (hb : ¬ badArgs ("saveGroup".toList :: rest) 3 4)
    (h : cmdSaveGroup fs ("saveGroup".toList :: rest) = .ok c) : Means env fs ("saveGroup".toList :: rest) c := by
  obtain ⟨h1, h2⟩ := not_badArgs hb
  simp only [len, List.length_cons] at h1 h2
  rcases rest with _ | ⟨p, _ | ⟨n, _ | ⟨k, _ | ⟨w, _⟩⟩⟩⟩
  · simp at h1
  · simp at h1
  · rw [cmdSaveGroup3] at h
    obtain ⟨z, e, h⟩ := ok_bind_inv h
    rw [Res.ok.injEq] at h
    subst h
    exact .saveGroup p n z (reads_of_stoi e)
  · rw [cmdSaveGroup4] at h
    obtain ⟨z, e, h⟩ := ok_bind_inv h
    obtain ⟨z', e', h⟩ := ok_bind_inv h
    rw [Res.ok.injEq] at h
    subst h
    exact .saveGroupSizes p n k z z' (reads_of_stoi e) (reads_of_stoi e')
  · simp only [List.length_cons] at h2
    omega

theorem means_loadGroup {env : Env α} {fs : FS} {rest : List Text} {c : Call α} (hb : ¬ badArgs ("loadGroup".toList :: rest) 3 3)
    (h : cmdLoadGroup fs ("loadGroup".toList :: rest) = .ok c) : Means env fs ("loadGroup".toList :: rest) c := by
  obtain ⟨h1, h2⟩ := not_badArgs hb
  simp only [len, List.length_cons] at h1 h2
  rcases rest with _ | ⟨i, _ | ⟨t, _ | ⟨k, _⟩⟩⟩
  · simp at h1
  · simp at h1
  · rw [cmdLoadGroup3] at h
    obtain ⟨z, e, h⟩ := ok_bind_inv h
    rw [Res.ok.injEq] at h
    subst h
    exact .loadGroup i t z (reads_of_stoi e)
  · simp only [List.length_cons] at h2
    omega

theorem means_normalize {env : Env α} {fs : FS} {rest : List Text} {c : Call α} (hb : ¬ badArgs ("normalize".toList :: rest) 2 2)
    (h : cmdNormalize ("normalize".toList :: rest) = .ok c) : Means env fs ("normalize".toList :: rest) c := by
  obtain ⟨h1, h2⟩ := not_badArgs hb
  simp only [len, List.length_cons] at h1 h2
  rcases rest with _ | ⟨i, _ | ⟨k, _⟩⟩
  · simp at h1
  · rw [cmdNormalize2] at h
    obtain ⟨z, e, h⟩ := ok_bind_inv h
    rw [Res.ok.injEq] at h
    subst h
    exact .normalize i z (reads_of_stoi e)
  · simp only [List.length_cons] at h2
    omega

theorem means_paa {env : Env α} {fs : FS} {rest : List Text} {c : Call α} (hb : ¬ badArgs ("paa".toList :: rest) 3 3)
    (h : cmdPAA ("paa".toList :: rest) = .ok c) : Means env fs ("paa".toList :: rest) c := by
  obtain ⟨h1, h2⟩ := not_badArgs hb
  simp only [len, List.length_cons] at h1 h2
  rcases rest with _ | ⟨i, _ | ⟨t, _ | ⟨k, _⟩⟩⟩
  · simp at h1
  · simp at h1
  · rw [cmdPAA3] at h
    obtain ⟨z, e, h⟩ := ok_bind_inv h
    obtain ⟨z', e', h⟩ := ok_bind_inv h
    rw [Res.ok.injEq] at h
    subst h
    exact .paa i t z z' (reads_of_stoi e) (reads_of_stoi e')
  · simp only [List.length_cons] at h2
    omega

theorem means_match {env : Env α} {fs : FS} {rest : List Text} {c : Call α} (hb : ¬ badArgs ("match".toList :: rest) 4 6)
    (h : cmdMatch ("match".toList :: rest) = .ok c) : Means env fs ("match".toList :: rest) c := by
  obtain ⟨h1, h2⟩ := not_badArgs hb
  simp only [len, List.length_cons] at h1 h2
  rcases rest with _ | ⟨i, _ | ⟨t, _ | ⟨k, _ | ⟨a, _ | ⟨b, _ | ⟨w, _⟩⟩⟩⟩⟩⟩
  · simp at h1
  · simp at h1
  · simp at h1
  · rw [cmdMatch4] at h
    obtain ⟨z, e, h⟩ := ok_bind_inv h
    obtain ⟨z', e', h⟩ := ok_bind_inv h
    obtain ⟨z'', e'', h⟩ := ok_bind_inv h
    rw [Res.ok.injEq] at h
    subst h
    exact .match i t k z z' z'' (reads_of_stoi e) (reads_of_stoi e') (reads_of_stoi e'')
  · rw [cmdMatch5] at h
    obtain ⟨z, e, h⟩ := ok_bind_inv h
    obtain ⟨z', e', h⟩ := ok_bind_inv h
    obtain ⟨z'', e'', h⟩ := ok_bind_inv h
    obtain ⟨z3, e3, h⟩ := ok_bind_inv h
    cases h
  · rw [cmdMatch6] at h
    obtain ⟨z, e, h⟩ := ok_bind_inv h
    obtain ⟨z', e', h⟩ := ok_bind_inv h
    obtain ⟨z'', e'', h⟩ := ok_bind_inv h
    obtain ⟨z3, e3, h⟩ := ok_bind_inv h
    obtain ⟨z4, e4, h⟩ := ok_bind_inv h
    rw [Res.ok.injEq] at h
    subst h
    exact .matchPart i t k a b z z' z'' z3 z4 (reads_of_stoi e) (reads_of_stoi e') (reads_of_stoi e'') (reads_of_stoi e3) (reads_of_stoi e4)
  · simp only [List.length_cons] at h2
    omega

/-- A command that neither makes a call nor does anything else. -/
def Quiet (s : Session α) (R : Eff (Session α) Unit) : Prop := R = (.ok (), s) ∨ ∃ e, e ≠ Exc.badAlloc ∧ R = (.throw e, s)

theorem quiet_guarded {env : Env α} {s : Session α} {args : List Text} {lo hi : Int} {pre : Res (Call α)} (ht : Tame pre)
    (hd : ¬ badArgs args lo hi → Defined pre) (hm : ¬ badArgs args lo hi → ∀ c, pre ≠ .ok c) :
    Quiet s (if badArgs args lo hi then (.ok (), s) else s.callWith env pre) := by
  by_cases hb : badArgs args lo hi
  · rw [if_pos hb]
    exact Or.inl rfl
  · rw [if_neg hb]
    rcases pre with c | e | w
    · exact absurd rfl (hm hb c)
    · exact Or.inr ⟨e, ht e rfl, rfl⟩
    · exact absurd rfl (hd hb w)

theorem five_of {args : List Text} (h : FiveMatch args) : FiveWordMatch args := by
  obtain ⟨h5, hh, hi⟩ := h
  have h5' : args.length = 5 := by
    simp only [len] at h5
    omega
  refine ⟨h5', hh, ?_⟩
  intro k w' hk hw
  obtain ⟨hlt, _⟩ := List.getElem?_eq_some_iff.mp hw
  obtain ⟨w2, z, e1, e2⟩ := hi k (by omega) (by omega)
  rw [arg_nat hw] at e1
  simp only [Res.ok.injEq] at e1
  subst e1
  exact ⟨z, reads_of_stoi e2⟩

theorem match_defined {args : List Text} (h1 : 4 ≤ len args) (h2 : len args ≤ 6) (hh : args.head? = some "match".toList)
    (h5 : ¬ FiveWordMatch args) : Defined (cmdMatch args : Res (Call α)) := by
  by_cases hl : len args = 5
  · obtain ⟨rest, rfl⟩ := args_words hh
    simp only [len, List.length_cons] at hl
    rcases rest with _ | ⟨a, _ | ⟨b, _ | ⟨c, _ | ⟨d, _ | ⟨_, _⟩⟩⟩⟩⟩ <;> simp only [List.length_cons, List.length_nil] at hl <;>
      try omega
    rw [cmdMatch5]
    intro w hw
    apply h5
    rcases ha : stoi a with x | x | x
    · rcases hb : stoi b with y | y | y
      · rcases hc : stoi c with z | z | z
        · rcases hd : stoi d with t | t | t
          · refine ⟨rfl, rfl, ?_⟩
            intro k w hk hw
            rcases k with _ | _ | _ | _ | _ | k
            · omega
            · simp only [List.getElem?_cons_succ, List.getElem?_cons_zero, Option.some.injEq] at hw
              subst hw
              exact ⟨x, reads_of_stoi ha⟩
            · simp only [List.getElem?_cons_succ, List.getElem?_cons_zero, Option.some.injEq] at hw
              subst hw
              exact ⟨y, reads_of_stoi hb⟩
            · simp only [List.getElem?_cons_succ, List.getElem?_cons_zero, Option.some.injEq] at hw
              subst hw
              exact ⟨z, reads_of_stoi hc⟩
            · simp only [List.getElem?_cons_succ, List.getElem?_cons_zero, Option.some.injEq] at hw
              subst hw
              exact ⟨t, reads_of_stoi hd⟩
            · simp at hw
          · rw [ha, hb, hc, hd] at hw
            cases hw
          · exact absurd hd (defined_stoi d _)
        · rw [ha, hb, hc] at hw
          cases hw
        · exact absurd hc (defined_stoi c _)
      · rw [ha, hb] at hw
        cases hw
      · exact absurd hb (defined_stoi b _)
    · rw [ha] at hw
      cases hw
    · exact absurd ha (defined_stoi a _)
  · unfold cmdMatch
    defined

theorem command_quiet (env : Env α) (fs : FS) (s : Session α) (name : Text) (rest : List Text)
    (hne : ∀ w ∈ name :: rest, w ≠ []) (hm : ∀ c, ¬ Means env fs (name :: rest) c)
    (ht : name :: rest ≠ ["timer".toList, "on".toList] ∧ name :: rest ≠ ["timer".toList, "off".toList])
    (h5 : ¬ FiveWordMatch (name :: rest)) : Quiet s (doCommand env fs s name (name :: rest)) := by
  unfold doCommand
  dsimp only
  refine if_elim ?_ ?_
  · rintro rfl
    refine quiet_guarded (by unfold cmdLoad; tame) ?_ fun hb c h => hm c (means_load hb h)
    intro hb
    obtain ⟨h1, h2⟩ := not_badArgs hb
    unfold cmdLoad
    defined
  intro _
  refine if_elim ?_ ?_
  · rintro rfl
    refine quiet_guarded (by unfold cmdSave; tame) ?_ fun hb c h => hm c (means_save (fun w hw => hne w (by simp [hw])) hb h)
    intro hb
    obtain ⟨h1, h2⟩ := not_badArgs hb
    unfold cmdSave
    repeat' first
      | exact defined_head hne (by assumption)
      | defined_step
  intro _
  refine if_elim ?_ ?_
  · rintro rfl
    refine quiet_guarded (by unfold cmdUnload; tame) ?_ fun hb c h => hm c (means_unload hb h)
    intro hb
    obtain ⟨h1, h2⟩ := not_badArgs hb
    unfold cmdUnload
    defined
  intro _
  refine if_elim ?_ ?_
  · rintro rfl
    split
    · exact Or.inl rfl
    · rename_i hb
      split
      · rename_i ha
        exfalso
        obtain ⟨h1, h2⟩ := not_badArgs hb
        simp only [len, List.length_cons] at h1 h2
        rcases rest with _ | ⟨a, _ | ⟨_, _⟩⟩
        · simp at h1
        · have : a = "dataset".toList := by
            have e : arg ["list".toList, a] 1 = .ok a := rfl
            rw [e, Res.ok.injEq] at ha
            exact ha
          subst this
          exact hm _ .list
        · simp only [List.length_cons] at h2
          omega
      · exact Or.inl rfl
  intro _
  refine if_elim ?_ ?_
  · rintro rfl
    split
    · exact Or.inl rfl
    rename_i hb
    split
    · exact Or.inl rfl
    rename_i h1
    obtain ⟨h0, h2⟩ := not_badArgs hb
    simp only [len, List.length_cons] at h0 h1 h2
    rcases rest with _ | ⟨a, _ | ⟨_, _⟩⟩
    · simp at h1
    · have e : arg ["timer".toList, a] 1 = .ok a := rfl
      rw [e]
      split
      · rename_i ha
        rw [Res.ok.injEq] at ha
        subst ha
        exact absurd rfl ht.1
      split
      · rename_i ha
        rw [Res.ok.injEq] at ha
        subst ha
        exact absurd rfl ht.2
      exact Or.inl rfl
    · simp only [List.length_cons] at h2
      omega
  intro _
  refine if_elim ?_ ?_
  · rintro rfl
    refine quiet_guarded (by unfold cmdGroup; tame) ?_ fun hb c h => hm c (means_group hb h)
    intro hb
    obtain ⟨h1, h2⟩ := not_badArgs hb
    unfold cmdGroup
    defined
  intro _
  refine if_elim ?_ ?_
  · rintro rfl
    refine quiet_guarded (by unfold cmdSaveGroup; tame) ?_ fun hb c h => hm c (means_saveGroup hb h)
    intro hb
    obtain ⟨h1, h2⟩ := not_badArgs hb
    unfold cmdSaveGroup
    defined
  intro _
  refine if_elim ?_ ?_
  · rintro rfl
    refine quiet_guarded (by unfold cmdLoadGroup; tame) ?_ fun hb c h => hm c (means_loadGroup hb h)
    intro hb
    obtain ⟨h1, h2⟩ := not_badArgs hb
    unfold cmdLoadGroup
    defined
  intro _
  refine if_elim ?_ ?_
  · rintro rfl
    refine quiet_guarded (by unfold cmdNormalize; tame) ?_ fun hb c h => hm c (means_normalize hb h)
    intro hb
    obtain ⟨h1, h2⟩ := not_badArgs hb
    unfold cmdNormalize
    defined
  intro _
  refine if_elim ?_ ?_
  · rintro rfl
    refine quiet_guarded (by unfold cmdPAA; tame) ?_ fun hb c h => hm c (means_paa hb h)
    intro hb
    obtain ⟨h1, h2⟩ := not_badArgs hb
    unfold cmdPAA
    defined
  intro _
  refine if_elim ?_ ?_
  · rintro rfl
    refine quiet_guarded (by unfold cmdMatch; tame) ?_ fun hb c h => hm c (means_match hb h)
    intro hb
    obtain ⟨h1, h2⟩ := not_badArgs hb
    exact match_defined h1 h2 rfl h5
  intro _
  exact Or.inl rfl

theorem five_crashes (env : Env α) (fs : FS) (s : Session α) {line : Text} {args : List Text} (hl : LineHas [' '] line args)
    (h : FiveWordMatch args) : mainStep env fs s line = .crashes := by
  obtain ⟨h5, hh, hi⟩ := h
  obtain ⟨rest, rfl⟩ := args_words hh
  rcases rest with _ | ⟨a, _ | ⟨b, _ | ⟨c, _ | ⟨d, _ | ⟨_, _⟩⟩⟩⟩⟩ <;> simp only [List.length_cons, List.length_nil] at h5 <;> try omega
  obtain ⟨x, hx⟩ := hi 1 a (by omega) rfl
  obtain ⟨y, hy⟩ := hi 2 b (by omega) rfl
  obtain ⟨z, hz⟩ := hi 3 c (by omega) rfl
  obtain ⟨t, ht⟩ := hi 4 d (by omega) rfl
  have e : doCommand env fs s "match".toList ["match".toList, a, b, c, d] = (.ub "read out of bounds", s) := by
    show s.callWith env (cmdMatch ["match".toList, a, b, c, d]) = _
    rw [cmdMatch5, stoi_of_reads hx, stoi_of_reads hy, stoi_of_reads hz, stoi_of_reads ht]
    rfl
  unfold mainStep
  rw [processLine_words env fs s hl, if_neg (by decide), if_neg (by decide), if_neg (by decide), e]
  rfl

/-- The arguments of a command, evaluated. -/
def evalArgs (env : Env α) (fs : FS) (args : List Text) : Res (Call α) :=
  let name := args.headD []
  if name = "load".toList then cmdLoad fs args
  else if name = "save".toList then cmdSave fs args
  else if name = "unload".toList then cmdUnload args
  else if name = "list".toList then .ok .allInfo
  else if name = "group".toList then cmdGroup env args
  else if name = "saveGroup".toList then cmdSaveGroup fs args
  else if name = "loadGroup".toList then cmdLoadGroup fs args
  else if name = "normalize".toList then cmdNormalize args
  else if name = "paa".toList then cmdPAA args
  else cmdMatch args

theorem means_eval {env : Env α} {fs : FS} {args : List Text} {c : Call α} (h : Means env fs args c) : evalArgs env fs args = .ok c := by
  cases h with
  | load p => rfl
  | loadRows p n z hn =>
    show cmdLoad fs _ = _
    rw [cmdLoad3, stoi_of_reads hn]
    rfl
  | loadColumns p n c z k hn hc =>
    show cmdLoad fs _ = _
    rw [cmdLoad4, stoi_of_reads hn, stoi_of_reads hc]
    rfl
  | loadSeparators p n c w z k hn hc =>
    show cmdLoad fs _ = _
    rw [cmdLoad5, stoi_of_reads hn, stoi_of_reads hc]
    rfl
  | save i p k hi =>
    show cmdSave fs _ = _
    rw [cmdSave3, stoi_of_reads hi]
    rfl
  | saveSeparator i p k hi c w =>
    show cmdSave fs _ = _
    rw [cmdSave4, stoi_of_reads hi, Res.ok_bind', ite_not]
  | unload i more hm k hi =>
    show cmdUnload _ = _
    rw [cmdUnload2, stoi_of_reads hi]
    rfl
  | list => rfl
  | group i t k hi x ht =>
    show cmdGroup env _ = _
    rw [cmdGroup3, stoi_of_reads hi, stod_ok.mpr ht]
    rfl
  | saveGroup i p k hi =>
    show cmdSaveGroup fs _ = _
    rw [cmdSaveGroup3, stoi_of_reads hi]
    rfl
  | saveGroupSizes i p o k z hi ho =>
    show cmdSaveGroup fs _ = _
    rw [cmdSaveGroup4, stoi_of_reads hi, stoi_of_reads ho]
    rfl
  | loadGroup i p k hi =>
    show cmdLoadGroup fs _ = _
    rw [cmdLoadGroup3, stoi_of_reads hi]
    rfl
  | normalize i k hi =>
    show cmdNormalize _ = _
    rw [cmdNormalize2, stoi_of_reads hi]
    rfl
  | paa i n k z hi hn =>
    show cmdPAA _ = _
    rw [cmdPAA3, stoi_of_reads hi, stoi_of_reads hn]
    rfl
  | «match» d q t a b c hd hq ht =>
    show cmdMatch _ = _
    rw [cmdMatch4, stoi_of_reads hd, stoi_of_reads hq, stoi_of_reads ht]
    rfl
  | matchPart d q t b e a b' c x y hd hq ht hb he =>
    show cmdMatch _ = _
    rw [cmdMatch6, stoi_of_reads hd, stoi_of_reads hq, stoi_of_reads ht, stoi_of_reads hb, stoi_of_reads he]
    rfl

end Onex
