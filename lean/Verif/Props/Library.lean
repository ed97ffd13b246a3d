import Verif.Proofs.Library
import Verif.Props.Command

/-!
# Property C65: the library as its user sees it
-/

namespace Onex
open Spec

/-- **C65.** A history of calls that the description gives replies to is carried out without undefined behaviour, and the library
returns, or throws, exactly those replies, one for each call. -/
theorem C65_history (ratio : ℝ) (calls : List (Env XF × Call XF)) (rs : List Reply) (B : Lib) (h : (Lib.new ratio).Run calls rs B) :
    ∃ b, Api.run (Api.init (F.fin ratio)) calls = some b ∧
      List.Forall₂ Replies rs (answersTo (Api.init (F.fin ratio)) calls) := by
  obtain ⟨b, h1, _, h3⟩ := sim_run h (sim_init ratio)
  exact ⟨b, h1, h3⟩

/-- **C65.** After any such history, every call within the bounds of the description has a reply. -/
theorem C65_answered (ratio : ℝ) (calls : List (Env XF × Call XF)) (rs : List Reply) (B : Lib) (h : (Lib.new ratio).Run calls rs B)
    (env : Env XF) (c : Call XF) (hc : B.Covers env c) : ∃ R B', B.Step env c R B' := by
  obtain ⟨b, _, h2, _⟩ := sim_run h (sim_init ratio)
  exact step_exists env h2 c hc

/-- **C65.** The description determines the replies. -/
theorem C65_determined (ratio : ℝ) (calls : List (Env XF × Call XF)) (rs rs' : List Reply) (B B' : Lib)
    (h : (Lib.new ratio).Run calls rs B) (h' : (Lib.new ratio).Run calls rs' B') : rs = rs' := by
  obtain ⟨_, _, h1⟩ := C65_history ratio calls rs B h
  obtain ⟨_, _, h2⟩ := C65_history ratio calls rs' B' h'
  have : ∀ {rs rs' : List Reply} {l : List (Res (Ans XF))}, List.Forall₂ Replies rs l → List.Forall₂ Replies rs' l → rs = rs' := by
    intro rs rs' l h
    induction h generalizing rs' with
    | nil => intro h'; cases h'; rfl
    | cons h1 _ ih =>
      intro h'
      cases h' with
      | cons h2 h3 => rw [Replies.unique h1 h2, ih h3]
  exact this h1 h2

/-- **C65.** The same through the command line: lines that stand for such calls get the replies described. -/
theorem C65_session (ratio : ℝ) (inputs : List (Env XF × FS × Option Text)) (calls : List (Env XF × Call XF)) (rs : List Reply) (B : Lib)
    (hs : Script inputs calls) (h : (Lib.new ratio).Run calls rs B) (timer : Bool) :
    ∃ s, mainLoop ⟨Api.init (F.fin ratio), timer, []⟩ false inputs = .continues s ∧ List.Forall₂ Replies rs s.answers := by
  obtain ⟨b, h1, h2⟩ := C65_history ratio calls rs B h
  have hb : (Res.throw .badAlloc) ∉ answersTo (Api.init (F.fin ratio : XF)) calls := by
    intro hm
    obtain ⟨i, hi, e⟩ := List.getElem_of_mem hm
    have := h2.get (by rw [h2.length_eq]; exact hi) hi
    simp only [List.get_eq_getElem, e] at this
    generalize rs[i]'_ = R at this
    cases this
  have := C64_session_any inputs calls hs ⟨Api.init (F.fin ratio), timer, []⟩ hb
  simp only [h1] at this
  obtain ⟨t, ht⟩ := this
  refine ⟨_, ht, ?_⟩
  simpa using h2

section cases
variable (env : Env XF) (h0 : env.stod ['0'] = .val (F.fin 0)) (h2 : env.stod ['2'] = .val (F.fin 2))
  (h3 : env.stod ['3'] = .val (F.fin 3)) (hl : ∀ l, env.doLog l = false)
include h0 h2 h3 hl

/-- A case for the theorems above: three series are loaded, described, grouped into two groups, and searched for the second of them. The
reply is the third, at a distance greater than 0. -/
theorem library_case (path : String) : ∃ B, (Lib.new 0).Run
    [(env, .load (some "0 0\n2 2\n3 3\n".toList) path 0 0 [' ']), (env, .info 0), (env, .group 0 (F.fin 4)),
      (env, .bestMatch 0 0 1 (-1) (-1))]
    [.info ⟨0, path, 3, 2, false, false⟩, .info ⟨0, path, 3, 2, false, false⟩, .number 2,
      .window 2 0 2 (F.fin (Real.sqrt 2 / 4))] B := by
  have hfile : FileHas "0 0\n2 2\n3 3\n".toList ["0 0".toList, "2 2".toList, "3 3".toList] := fileHas_getLines _
  have ht : List.Forall₂ (fun l ts => LineHas [' '] l ts ∧ ts.length = 2)
      (["0 0".toList, "2 2".toList, "3 3".toList].take 3) [[['0'], ['0']], [['2'], ['2']], [['3'], ['3']]] :=
    .cons ⟨lineHas_self _, rfl⟩ (.cons ⟨lineHas_self _, rfl⟩ (.cons ⟨lineHas_self _, rfl⟩ .nil))
  have hv : List.Forall₂ (fun ts row => List.Forall₂ (fun t x => env.stod t = .val (F.fin x)) (ts.drop 0) row)
      [[['0'], ['0']], [['2'], ['2']], [['3'], ['3']]] ([[0, 0], [2, 2], [3, 3]] : List (List ℝ)) :=
    .cons (.cons h0 (.cons h0 .nil)) (.cons (.cons h2 (.cons h2 .nil)) (.cons (.cons h3 (.cons h3 .nil)) .nil))
  set R : List (List ℝ) := [[0, 0], [2, 2], [3, 3]] with hRdef
  set e : Entry := ⟨path, 2, R, false, none⟩ with he
  set A : Lib := (Lib.new 0).set 0 (some e) with hA
  have hA0 : A.entry 0 = some e := by simp [A, Lib.set]
  have hfit : A.Fits 2 := ⟨le_refl _, by simp [A, Lib.set, Lib.new]⟩
  have r02 : rms [0, 0] [2, 2] = 2 := by
    rw [rms, Real.sqrt_eq_iff_mul_self_eq (by positivity) (by norm_num)]
    norm_num [Finset.sum_range_succ]
  have r03 : rms [0, 0] [3, 3] = 3 := by
    rw [rms, Real.sqrt_eq_iff_mul_self_eq (by positivity) (by norm_num)]
    norm_num [Finset.sum_range_succ]
  have hG : e.Groups 4 fun _ => [[(1, 0), (0, 0)], [(2, 0)]] := by
    intro l l2 lL
    obtain rfl : l = 2 := le_antisymm lL l2
    change Leader (fun c c' => rms (subVals R 2 c) (subVals R 2 c')) (4 / 2) ([] ++ [(0, 0)] ++ [(1, 0)] ++ [(2, 0)])
      (((([] : List (List Coord)) ++ [[(0, 0)]]).set 0 [(1, 0), (0, 0)]) ++ [[(2, 0)]])
    refine .found (.join (cs := [] ++ [(0, 0)]) (G := [] ++ [[(0, 0)]]) (.found .nil (by simp)) 0 (by simp) (0, 0) (by simp) ?_ ?_) ?_
    · simp [subVals, R, r02]
      norm_num
    · intro j hj b hb
      simp only [List.nil_append, List.length_singleton, Nat.lt_one_iff] at hj
      subst hj
      simp only [List.nil_append, List.getElem_cons_zero, List.getLast?_singleton, Option.mem_some_iff] at hb
      subst hb
      simp
    · simp [subVals, R, r03]
      norm_num
  have w0 : warped 0 [2, 2] (subVals R 2 (0, 0)) = F.fin (Real.sqrt 8 / 4) := by
    have := warped0 2 2 0 0
    norm_num at this
    simpa [subVals, R] using this
  have w2 : warped 0 [2, 2] (subVals R 2 (2, 0)) = F.fin (Real.sqrt 2 / 4) := by
    have := warped0 2 2 3 3
    norm_num at this
    simpa [subVals, R] using this
  have hlt : Real.sqrt 2 / 4 < Real.sqrt 8 / 4 := div_lt_div_of_pos_right (Real.sqrt_lt_sqrt (by norm_num) (by norm_num)) (by norm_num)
  have hans : Answer (fun l c => warped 0 [2, 2] (subVals R l c)) (fun _ => [[(1, 0), (0, 0)], [(2, 0)]]) 2 2 2 (2, 0) := by
    refine ⟨⟨le_refl _, le_refl _⟩, by simp [w2], 1, by simp, (2, 0), by simp, ?_, ?_, [], [], rfl, by simp⟩
    · intro l' h1 h2 k' hk' a' ha'
      obtain rfl : l' = 2 := le_antisymm h2 h1
      simp only [List.length_cons, List.length_nil] at hk'
      rcases (by omega : k' = 0 ∨ k' = 1) with rfl | rfl
      · simp only [List.getElem_cons_zero, List.getLast?_cons_cons, List.getLast?_singleton, Option.mem_some_iff] at ha'
        subst ha'
        simp only [w0, w2, lt_iff]
        exact ⟨not_lt.mpr hlt.le, fun _ => hlt⟩
      · simp only [List.getElem_cons_succ, List.getElem_cons_zero, List.getLast?_singleton, Option.mem_some_iff] at ha'
        subst ha'
        simp only [w2]
        exact ⟨not_lt_self_F _, fun h => absurd h (by simp [Nearer])⟩
    · intro c' hc'
      simp only [List.getElem_cons_succ, List.getElem_cons_zero, List.mem_cons, List.not_mem_nil, or_false] at hc'
      subst hc'
      exact not_lt_self_F _
  have g1 : A.Step env (.group 0 (F.fin 4)) (.number 2) (A.set 0 (some { e with threshold := some 4 })) := .group hA0 hfit (fun l _ _ h => by rw [hl] at h; simp at h) hG
  refine ⟨A.set 0 (some { e with threshold := some 4 }), .cons (.load (s := 0) (c := 2) (k := 3) (id := 0) hfile rfl (by norm_num) ht
    (by norm_num) hv ⟨le_refl _, rfl, fun j h1 h2 => by omega⟩) (.cons (.info hA0) (.cons g1 (.cons ?_ .nil)))⟩
  · rw [← w2]
    exact .bestMatch (er := { e with threshold := some 4 }) (eq := { e with threshold := some 4 }) (st := 4) (vals := [2, 2]) (l := 2) (c := (2, 0))
      (by simp [Lib.set]) (by simp [Lib.set]) rfl ⟨by norm_num, [2, 2], rfl, Or.inl ⟨by norm_num, by norm_num, rfl⟩⟩ (by simp) (le_refl _)
      hfit hG hans

/-- The library gives those replies. -/
example (path : String) : ∃ a v, Api.run (Api.init (F.fin 0))
      [(env, .load (some "0 0\n2 2\n3 3\n".toList) path 0 0 [' ']), (env, .info 0), (env, .group 0 (F.fin 4)),
        (env, .bestMatch 0 0 1 (-1) (-1))] = some a ∧
    answersTo (Api.init (F.fin 0))
      [(env, .load (some "0 0\n2 2\n3 3\n".toList) path 0 0 [' ']), (env, .info 0), (env, .group 0 (F.fin 4)),
        (env, .bestMatch 0 0 1 (-1) (-1))] =
      [.ok (.info ⟨0, path, 3, 2, false, false⟩), .ok (.info ⟨0, path, 3, 2, false, false⟩), .ok (.int 2),
        .ok (.cand { ts := v, dist := F.fin (Real.sqrt 2 / 4) })] ∧
    v.index = 2 ∧ v.start = 0 ∧ v.stop = 2 := by
  obtain ⟨B, hB⟩ := library_case env h0 h2 h3 hl path
  obtain ⟨a, h1, h2⟩ := C65_history 0 _ _ B hB
  generalize answersTo (Api.init (F.fin 0 : XF)) _ = l at h2
  have key : ∀ {a b c : Int} {d : XF} {r}, Replies (.window a b c d) r → ∃ v, r = .ok (.cand { ts := v, dist := d }) ∧ v.index = a ∧ v.start = b ∧ v.stop = c := by
    intro a b c d r h
    cases h with
    | window v d => exact ⟨v, rfl, rfl, rfl, rfl⟩
  cases h2 with | cons r1 h2 => cases h2 with | cons r2 h2 => cases h2 with | cons r3 h2 => cases h2 with | cons r4 h2 =>
  cases h2
  obtain ⟨v, rfl, e⟩ := key r4
  refine ⟨a, v, h1, ?_, e⟩
  cases r1
  cases r2
  cases r3
  rfl

end cases

/-- Calls within the bounds in the empty library. -/
example (env : Env XF) (ratio : ℝ) (path : String) : (Lib.new ratio).Covers env (.setRatio (F.fin 1)) ∧
    (Lib.new ratio).Covers env (.bestMatch 0 0 0 0 0) ∧ (Lib.new ratio).Covers env (.save 3 true path ',') :=
  ⟨⟨1, rfl⟩, fun _ _ _ h => by simp [Lib.new] at h, trivial⟩

end Onex
