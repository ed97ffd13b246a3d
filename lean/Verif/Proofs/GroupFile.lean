import Verif.Proofs.GroupGlobal
import Verif.Spec.GroupFile
import Mathlib.Tactic.Linarith

/-!
# Reading what was written: numbers, members, groups
-/

namespace Onex
open DataT Spec

set_option linter.unusedSectionVars false

/-! ## Integers -/

theorem digitsVal_eq (l : Text) : digitsVal l = Nat.ofDigitChars 10 l 0 := by
  rw [Nat.ofDigitChars_eq_foldl]
  rfl

theorem showInt_nat (n : Nat) : showInt (n : Int) = Nat.toDigits 10 n := by
  unfold showInt
  rw [Int.toString_eq_repr, Int.repr_eq_if, if_pos (by omega)]
  simp [Nat.toList_repr]

theorem showInt_neg {z : Int} (h : z < 0) : showInt z = '-' :: Nat.toDigits 10 z.natAbs := by
  unfold showInt
  rw [Int.toString_eq_repr, Int.repr_eq_if, if_neg (by omega)]
  have : (-z).toNat = z.natAbs := by omega
  simp [this, Nat.toList_repr]

theorem isSpace_not_digit {c : Char} (h : isSpace c = true) : c.isDigit = false := by
  unfold isSpace at h
  simp only [Bool.or_eq_true, decide_eq_true_eq] at h
  rcases h with ((((rfl | rfl) | rfl) | rfl) | rfl) | rfl <;> rfl

theorem takeWhile_append_stop {p : Char → Bool} {a : Text} {c : Char} {t : Text} (ha : ∀ x ∈ a, p x = true)
    (hc : p c = false) : (a ++ c :: t).takeWhile p = a ∧ (a ++ c :: t).dropWhile p = c :: t := by
  induction a with
  | nil => simp [hc]
  | cons x a ih =>
    have hx := ha x (by simp)
    obtain ⟨i1, i2⟩ := ih (fun y hy => ha y (by simp [hy]))
    simp [hx, i1, i2]

theorem dropWhile_spaces {ws : Text} (h : ∀ c ∈ ws, isSpace c = true) (t : Text) :
    (ws ++ t).dropWhile isSpace = t.dropWhile isSpace := by
  induction ws with
  | nil => rfl
  | cons x ws ih =>
    simp only [List.cons_append, List.dropWhile_cons, h x (by simp), if_true]
    exact ih (fun c hc => h c (by simp [hc]))

/-- A stream that has not failed and is at `t`, up to leading whitespace. -/
def At (s : Stream) (t : Text) : Prop :=
  s.fail = false ∧ ∃ ws, (∀ c ∈ ws, isSpace c = true) ∧ s.rest = ws ++ t

theorem At.start (t : Text) : At { rest := t, fail := false } t := ⟨rfl, [], by simp, rfl⟩

theorem At.skip {s : Stream} {c : Char} {t : Text} (h : At s (c :: t)) (hc : isSpace c = true) : At s t := by
  obtain ⟨h1, ws, h2, h3⟩ := h
  refine ⟨h1, ws ++ [c], ?_, by simp [h3]⟩
  intro x hx
  rcases List.mem_append.mp hx with hx | hx
  · exact h2 x hx
  · rw [List.mem_singleton] at hx
    rw [hx]
    exact hc

theorem At.drop {s : Stream} {t u : Text} (h : At s (t ++ u)) (ht : ∃ c t', t = c :: t' ∧ isSpace c = false) :
    s.rest.dropWhile isSpace = t ++ u := by
  obtain ⟨c, t', rfl, hc⟩ := ht
  obtain ⟨_, ws, h2, h3⟩ := h
  rw [List.cons_append] at h3 ⊢
  rw [h3, dropWhile_spaces h2, List.dropWhile_cons, hc]
  simp

theorem digits_isDigit {n : Nat} {c : Char} (h : c ∈ Nat.toDigits 10 n) : c.isDigit = true :=
  Nat.isDigit_of_mem_toDigits (by norm_num) (by norm_num) h

theorem digit_not_space {c : Char} (h : c.isDigit = true) : isSpace c = false := by
  by_contra hc
  rw [isSpace_not_digit (by simpa using hc)] at h
  simp at h

theorem digit_ne_sign {c : Char} (h : c.isDigit = true) : c ≠ '-' ∧ c ≠ '+' := by
  constructor <;> (rintro rfl; exact absurd h (by decide))

theorem splitInt_show (z : Int) {c : Char} (hc : c.isDigit = false) (t : Text) :
    splitInt (showInt z ++ c :: t) = (decide (z < 0), Nat.toDigits 10 z.natAbs, c :: t) := by
  have key := takeWhile_append_stop (p := Char.isDigit) (a := Nat.toDigits 10 z.natAbs) (t := t)
    (fun x hx => digits_isDigit hx) hc
  by_cases hz : z < 0
  · rw [showInt_neg hz]
    unfold splitInt
    simp only [List.cons_append, key.1, key.2, hz, decide_true]
  · obtain ⟨n, rfl⟩ := Int.eq_ofNat_of_zero_le (not_lt.mp hz)
    rw [showInt_nat]
    simp only [Int.natAbs_natCast] at key ⊢
    rcases hd : Nat.toDigits 10 n with _ | ⟨x, xs⟩
    · exact absurd hd Nat.toDigits_ne_nil
    · have hx : x.isDigit = true := digits_isDigit (n := n) (by rw [hd]; simp)
      obtain ⟨n1, n2⟩ := digit_ne_sign hx
      rw [hd] at key
      unfold splitInt
      simp only [List.cons_append] at key ⊢
      have : ¬ ((n : Int) < 0) := by omega
      split
      · rename_i h
        simp only [List.cons.injEq] at h
        exact absurd h.1 n1
      · rename_i h
        simp only [List.cons.injEq] at h
        exact absurd h.1 n2
      · simp only [key.1, key.2, this, decide_false]

theorem showInt_cons (z : Int) : ∃ c t, showInt z = c :: t ∧ isSpace c = false := by
  by_cases hz : z < 0
  · rw [showInt_neg hz]
    exact ⟨_, _, rfl, by decide⟩
  · obtain ⟨n, rfl⟩ := Int.eq_ofNat_of_zero_le (not_lt.mp hz)
    rw [showInt_nat]
    rcases hd : Nat.toDigits 10 n with _ | ⟨x, xs⟩
    · exact absurd hd Nat.toDigits_ne_nil
    · exact ⟨x, xs, rfl, digit_not_space (digits_isDigit (n := n) (by rw [hd]; simp))⟩

/-- Reading a printed integer. -/
theorem readInt_show {s : Stream} {z : Int} {c : Char} {t : Text} (hr : inIntRange z = true)
    (hc : isSpace c = true) (h : At s (showInt z ++ c :: t)) :
    ∃ s', readInt s = (some z, s') ∧ At s' t := by
  obtain ⟨x, xs, e, hx⟩ := showInt_cons z
  have hd := At.drop h ⟨x, xs, e, hx⟩
  refine ⟨{ rest := c :: t, fail := false }, ?_, (At.start (c :: t)).skip hc⟩
  unfold readInt
  rw [h.1]
  simp only [Bool.false_eq_true, if_false, hd]
  rw [if_neg (by rw [e]; simp), splitInt_show z (isSpace_not_digit hc)]
  simp only
  rw [if_neg Nat.toDigits_ne_nil, digitsVal_eq, Nat.ofDigitChars_ten_toDigits]
  have hv : (if decide (z < 0) = true then -(z.natAbs : Int) else (z.natAbs : Int)) = z := by
    by_cases hz : z < 0
    · rw [if_pos (by simpa using hz)]
      omega
    · rw [if_neg (by simpa using hz)]
      omega
  rw [hv, hr]
  rfl

/-- Reading a printed word. -/
theorem readName_word {s : Stream} {w : Text} {c : Char} {t : Text} (hne : w ≠ [])
    (hw : ∀ x ∈ w, isSpace x = false) (hc : isSpace c = true) (h : At s (w ++ c :: t)) :
    ∃ s', readName s = (w, s') ∧ At s' t := by
  rcases w with _ | ⟨x, xs⟩
  · exact absurd rfl hne
  have hd := At.drop h ⟨x, xs, rfl, hw x (by simp)⟩
  have key := takeWhile_append_stop (p := (!isSpace ·)) (a := x :: xs) (t := t) (c := c)
    (fun y hy => by simp [hw y hy]) (by simp [hc])
  refine ⟨{ rest := c :: t, fail := false }, ?_, (At.start (c :: t)).skip hc⟩
  unfold readName readWord
  rw [h.1]
  simp only [Bool.false_eq_true, if_false, hd, key.1, key.2]
  simp

section any
variable {α : Type} [DataT α]

/-! ## Numbers -/

variable {io : NumIO α} {P : α → Prop} {rt rt6 : α → α}

theorem readData_show {sh : α → Text} {rv v : α}
    (hword : ∃ c t, sh v = c :: t ∧ isSpace c = false)
    (hread : ∀ t, io.read (sh v ++ ' ' :: t) = some (rv, ' ' :: t)) {s : Stream} {t : Text}
    (h : At s (sh v ++ ' ' :: t)) : ∃ s', readData io s = (some rv, s') ∧ At s' t := by
  have hd := At.drop h hword
  obtain ⟨x, xs, e, hx⟩ := hword
  refine ⟨{ rest := ' ' :: t, fail := false }, ?_, (At.start (' ' :: t)).skip rfl⟩
  unfold readData
  rw [h.1]
  simp only [Bool.false_eq_true, if_false, hd, hread]
  rw [if_neg (by rw [e]; simp)]

theorem readCentroid_print (hio : IOok io P rt rt6) : ∀ (vals : List α) (s : Stream) (t : Text),
    (∀ v ∈ vals, P v) → At s (printData io vals ++ t) →
    ∃ s', readCentroid io vals.length s = (vals.map rt, s') ∧ At s' t
  | [], s, t, _, h => ⟨s, rfl, h⟩
  | v :: vals, s, t, hP, h => by
    have hv := hP v (by simp)
    simp only [printData, List.append_assoc, List.cons_append] at h
    obtain ⟨s1, e1, h1⟩ := readData_show (hio.word v hv) (hio.read v hv) h
    obtain ⟨s2, e2, h2⟩ := readCentroid_print hio vals s1 t (fun x hx => hP x (by simp [hx])) h1
    refine ⟨s2, ?_, h2⟩
    simp only [List.length_cons, readCentroid, e1, e2]
    rfl

/-! ## Members -/

/-- The members of a group as written. -/
def membersText : List Coord → Text
  | [] => []
  | c :: ms => showInt c.1 ++ ' ' :: (showInt c.2 ++ ' ' :: membersText ms)

theorem saveMembersLoop_spec {mm : List Membership} {g : Group α} {sub : Int} (hg : g.subCount = sub) :
    ∀ (fuel : Nat) (cur : Coord) (ms : List Coord), ms.length ≤ fuel → Chain mm sub cur ms →
      saveMembersLoop g mm fuel cur = .ok (membersText ms) := by
  intro fuel
  induction fuel with
  | zero =>
    intro cur ms hle hc
    cases hc with
    | nil _ h => simp [saveMembersLoop, h, membersText]
    | cons => simp at hle
  | succ fuel ih =>
    intro cur ms hle hc
    cases hc with
    | nil _ h => simp [saveMembersLoop, h, membersText]
    | cons _ e rest hc hget h =>
      unfold saveMembersLoop
      rw [if_neg hc]
      simp only
      rw [hg, show cur.1 * sub + cur.2 = slot sub cur from rfl, hget,
        Res.bind_ok, ih e.prev rest (by simpa using hle) h]
      rfl

/-- One group as written. -/
def groupText (io : NumIO α) (x : List α × List Coord) : Text :=
  printData io x.1 ++ '\n' :: (showInt x.2.length ++ ' ' :: (membersText x.2 ++ ['\n']))

theorem saveGroup_spec {ds : Dataset α} {l : Int} {mm : List Membership} {g : Group α} {x : List α × List Coord}
    (hmm : len mm = ds.itemCount * (ds.itemLength - l + 1)) (hg : GroupInv ds l mm g x.2)
    (hc : ∃ c, g.centroid.resolve ds = .ok c ∧ c.vals = x.1) : g.saveGroup io ds mm = .ok (groupText io x) := by
  obtain ⟨c, h1, h2⟩ := hc
  unfold Group.saveGroup
  rw [h1, Res.bind_ok, saveMembersLoop_spec hg.subCount _ _ _
    (le_trans (members_le hmm hg.subs hg.nodup) (by omega)) hg.chain, Res.bind_ok, h2, hg.count]
  rfl

/-- The loop of `loadGroup` over the members still to be read. -/
theorem loadMembers_spec {ds : Dataset α} {l : Int} {all : List Coord}
    (hsub : ∀ c ∈ all, IsSub ds.itemCount ds.itemLength l c) (hnd : all.Nodup)
    (hrange : ∀ c ∈ all, inIntRange c.1 = true ∧ inIntRange c.2 = true) {g : Group α} {mm : List Membership}
    (hmm : len mm = ds.itemCount * (ds.itemLength - l + 1)) (hg : GroupInv ds l mm g []) {s : Stream} {t : Text}
    (h : At s (membersText all ++ t)) :
    (forInt 0 (all.length : Int)
      ({ stream := s, index := none, start := none, group := g, mm := mm } : LoadState α)
      fun _ st => do
        let (i, s) := readInt st.stream
        let index := i <|> st.index
        let (j, s) := readInt s
        let start := j <|> st.start
        match index, start with
        | some i, some j => do
          let (g, mm) ← st.group.addMember st.mm i j
          return { stream := s, index := index, start := start, group := g, mm := mm }
        | _, _ => .ub "uninitialised read").Ensures fun st =>
      GroupInv ds l st.mm st.group all.reverse ∧ len st.mm = len mm ∧ st.group.centroid = g.centroid ∧
      (∀ (h : Group α) (ms' : List Coord), GroupInv ds l mm h ms' → (∀ c ∈ all, c ∉ ms') → GroupInv ds l st.mm h ms') ∧
      At st.stream t := by
  have := forInt_ensures (s := ({ stream := s, index := none, start := none, group := g, mm := mm } : LoadState α))
    (lo := 0) (hi := (all.length : Int))
    (body := fun _ st => do
        let (i, s) := readInt st.stream
        let index := i <|> st.index
        let (j, s) := readInt s
        let start := j <|> st.start
        match index, start with
        | some i, some j => do
          let (g, mm) ← st.group.addMember st.mm i j
          return { stream := s, index := index, start := start, group := g, mm := mm }
        | _, _ => .ub "uninitialised read")
    (fun i st => GroupInv ds l st.mm st.group (all.take i.toNat).reverse ∧ len st.mm = len mm ∧
      st.group.centroid = g.centroid ∧
      (∀ (h : Group α) (ms' : List Coord), GroupInv ds l mm h ms' → (∀ c ∈ all, c ∉ ms') → GroupInv ds l st.mm h ms') ∧
      At st.stream (membersText (all.drop i.toNat) ++ t)) (by omega)
    ⟨by simpa using hg, rfl, rfl, fun _ _ h _ => h, by simpa using h⟩ ?_
  · refine this.mono ?_
    rintro st ⟨a1, a2, a3, a4, a5⟩
    simp only [Int.toNat_natCast, List.take_length, List.drop_length] at a1 a5
    exact ⟨a1, a2, a3, a4, by simpa [membersText] using a5⟩
  · rintro i st hi0 hi1 ⟨a1, a2, a3, a4, a5⟩
    obtain ⟨i, rfl⟩ := Int.eq_ofNat_of_zero_le hi0
    have hi : i < all.length := by omega
    have hmem : all[i] ∈ all := List.getElem_mem hi
    simp only [Int.toNat_natCast] at a1 a5
    rw [List.drop_eq_getElem_cons hi] at a5
    simp only [membersText, List.append_assoc, List.cons_append] at a5
    obtain ⟨s1, e1, h1⟩ := readInt_show (hrange _ hmem).1 rfl a5
    obtain ⟨s2, e2, h2⟩ := readInt_show (hrange _ hmem).2 rfl h1
    have hnew : all[i] ∉ (all.take i).reverse := by
      rw [List.mem_reverse]
      intro hin
      obtain ⟨j, hj, e⟩ := List.getElem_of_mem hin
      simp only [List.length_take] at hj
      rw [List.getElem_take] at e
      have := (hnd.getElem_inj_iff).mp e
      omega
    obtain ⟨g', mm', b1, b2, b3, b4, _, b6⟩ := addMember_spec (a2.trans hmm) a1 (hsub _ hmem) hnew
    have hor : ∀ (x : Int) (o : Option Int), (some x <|> o) = some x := fun _ _ => rfl
    simp only [e1, e2, hor, b1, Res.bind_ok, Res.pure_eq, Res.ensures_ok]
    refine ⟨?_, b3.trans a2, b4.trans a3, ?_, ?_⟩
    · have : ((i : Int) + 1).toNat = i + 1 := by omega
      rw [this, List.take_succ_eq_append_getElem hi, List.reverse_append]
      exact b2
    · intro h ms' hi hd
      exact b6 h ms' (a4 h ms' hi hd) (hd _ hmem)
    · have : ((i : Int) + 1).toNat = i + 1 := by omega
      rw [this]
      exact h2

/-- Reading back one group. -/
theorem loadGroup_spec (hio : IOok io P rt rt6) {ds : Dataset α} {l : Int} {x : List α × List Coord}
    (hlen : x.1.length = l.toNat) (hP : ∀ v ∈ x.1, P v)
    (hsub : ∀ c ∈ x.2, IsSub ds.itemCount ds.itemLength l c) (hnd : x.2.Nodup)
    (hrange : ∀ c ∈ x.2, inIntRange c.1 = true ∧ inIntRange c.2 = true) (hcnt : inIntRange x.2.length = true)
    {mm : List Membership} (hmm : len mm = ds.itemCount * (ds.itemLength - l + 1)) (k : Int) {s : Stream} {t : Text}
    (h : At s (groupText io x ++ t)) :
    ∃ g' mm' s', (Group.new k l (ds.itemLength - l + 1) : Group α).loadGroup io mm s = .ok (g', mm', s') ∧
      GroupInv ds l mm' g' x.2.reverse ∧ len mm' = len mm ∧
      g'.centroid = { src := .own (x.1.map rt), cache := none } ∧
      (∀ (h : Group α) (ms' : List Coord), GroupInv ds l mm h ms' → (∀ c ∈ x.2, c ∉ ms') → GroupInv ds l mm' h ms') ∧
      At s' t := by
  unfold groupText at h
  simp only [List.append_assoc, List.cons_append] at h
  obtain ⟨s1, e1, h1⟩ := readCentroid_print hio x.1 s _ hP h
  obtain ⟨s2, e2, h2⟩ := readInt_show hcnt rfl (h1.skip rfl)
  obtain ⟨st, e3, c1, c2, c3, c4, c5⟩ := loadMembers_spec (g := { (Group.new k l (ds.itemLength - l + 1) : Group α) with
      centroid := { src := .own (x.1.map rt), cache := none } }) hsub hnd hrange hmm
      ((groupInv_new ds l k mm).of_centroid _) h2
  refine ⟨st.group, st.mm, st.stream, ?_, c1, c2, c3, c4, c5.skip rfl⟩
  unfold Group.loadGroup
  have hml : (Group.new k l (ds.itemLength - l + 1) : Group α).memberLength = l := rfl
  simp only [hml, ← hlen, e1, e2]
  have hcc : (Group.new k l (ds.itemLength - l + 1) : Group α).centroid.cache = none := rfl
  simp only [hcc]
  exact congrArg (fun r => r >>= fun st => pure (st.group, st.mm, st.stream)) e3

end any

end Onex
