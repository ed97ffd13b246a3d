import Verif.Model.SeriesHist
import Verif.Proofs.Basic

/-!
# Ownership invariant of series objects
-/

set_option linter.unusedSectionVars false

namespace Onex

variable {α : Type} [DataT α]

namespace Store

/-- Object `i` exists and is `o`. -/
def Live (s : Store α) (i : Nat) (o : Obj α) : Prop := s.objs[i]? = some (some o)

theorem obj_eq_ok {s : Store α} {i : Nat} {o : Obj α} : s.obj i = .ok o ↔ s.Live i o := by
  unfold obj Live
  rcases h : s.objs[i]? with _ | (_ | o') <;> simp

/-- Block `b` is allocated and holds `c`. -/
def Holds (s : Store α) (b : Nat) (c : List α) : Prop := s.heap[b]? = some ⟨true, c⟩

theorem block_eq_ok {s : Store α} {p : Option Nat} {c : List α} :
    s.block p = .ok c ↔ ∃ b, p = some b ∧ s.Holds b c := by
  unfold block Holds
  rcases p with _ | b
  · simp
  · rcases h : s.heap[b]? with _ | ⟨al, cs⟩
    · simp [h]
    · cases al <;> simp [h]

theorem Holds.inj {s : Store α} {b : Nat} {c c' : List α} (h : s.Holds b c) (h' : s.Holds b c') :
    c = c' := by
  unfold Holds at h h'
  rw [h] at h'
  simpa using h'

theorem Holds.lt {s : Store α} {b : Nat} {c : List α} (h : s.Holds b c) : b < s.heap.length :=
  (List.getElem?_eq_some_iff.mp h).1

theorem live_setObj {s : Store α} {i k : Nat} {n : Option (Obj α)} {o : Obj α}
    (h : (s.setObj i n).Live k o) : (k ≠ i ∧ s.Live k o) ∨ (k = i ∧ n = some o) := by
  unfold Live setObj at h
  simp only [List.getElem?_set] at h
  by_cases hk : i = k
  · subst hk
    rw [if_pos rfl] at h
    split at h
    · right
      exact ⟨rfl, by simpa using h⟩
    · cases h
  · rw [if_neg hk] at h
    left
    exact ⟨fun h => hk h.symm, h⟩

theorem setObj_live_ne {s : Store α} {i k : Nat} {n : Option (Obj α)} {o : Obj α} (hk : k ≠ i)
    (h : s.Live k o) : (s.setObj i n).Live k o := by
  unfold Live setObj
  rw [List.getElem?_set_ne (fun h => hk h.symm)]
  exact h

theorem setObj_live_self {s : Store α} {i : Nat} {o' o : Obj α} (h : s.Live i o) :
    (s.setObj i (some o')).Live i o' := by
  have hl := (List.getElem?_eq_some_iff.mp h).1
  unfold Live setObj
  simp [hl]

/-- What is known of an object in memory. -/
structure ObjOk (s : Store α) (ext : List Nat) (o : Obj α) : Prop where
  own : o.owner = true → 0 ≤ o.length ∧ o.off = 0 ∧ o.start = 0 ∧
    ∀ b, o.data = some b → b ∉ ext ∧ ∃ c, s.Holds b c ∧ len c = o.length
  view : o.owner = false → ∀ b, o.data = some b → b ∈ ext ∧ 0 ≤ o.length ∧ 0 ≤ o.off + o.start ∧
    ∃ c, s.Holds b c ∧ o.off + o.start + o.length ≤ len c

/-- The ownership invariant. -/
structure Inv (s : Store α) (ext : List Nat) : Prop where
  objs : ∀ i o, s.Live i o → s.ObjOk ext o
  uniq : ∀ i j oi oj b, s.Live i oi → s.Live j oj → oi.owner = true → oj.owner = true →
    oi.data = some b → oj.data = some b → i = j
  ext : ∀ b ∈ ext, ∃ c, s.Holds b c

/-- An object with data can be read in its window. -/
theorem ObjOk.window {s : Store α} {ext : List Nat} {o : Obj α} (h : s.ObjOk ext o) {b : Nat}
    (hb : o.data = some b) : 0 ≤ o.length ∧ 0 ≤ o.off + o.start ∧
      ∃ c, s.Holds b c ∧ o.off + o.start + o.length ≤ len c := by
  cases ho : o.owner with
  | true =>
    obtain ⟨h1, h2, h3, h4⟩ := h.own ho
    obtain ⟨_, c, h5, h6⟩ := h4 b hb
    exact ⟨h1, by omega, c, h5, by omega⟩
  | false =>
    obtain ⟨_, h1, h2, h3⟩ := h.view ho b hb
    exact ⟨h1, h2, h3⟩

theorem ObjOk.mono {s s' : Store α} {ext ext' : List Nat} {o : Obj α} (h : s.ObjOk ext o)
    (hh : ∀ b c, o.data = some b → s.Holds b c → ∃ c', s'.Holds b c' ∧ c'.length = c.length)
    (he : ∀ b ∈ ext, b ∈ ext') (hn : ∀ b, o.owner = true → o.data = some b → b ∉ ext') :
    s'.ObjOk ext' o := by
  constructor
  · intro ho
    obtain ⟨h1, h2, h3, h4⟩ := h.own ho
    refine ⟨h1, h2, h3, fun b hb => ⟨hn b ho hb, ?_⟩⟩
    obtain ⟨_, c, h5, h6⟩ := h4 b hb
    obtain ⟨c', h7, h8⟩ := hh b c hb h5
    exact ⟨c', h7, by simp only [len] at *; omega⟩
  · intro ho b hb
    obtain ⟨h1, h2, h3, c, h4, h5⟩ := h.view ho b hb
    obtain ⟨c', h7, h8⟩ := hh b c hb h4
    exact ⟨he b h1, h2, h3, c', h7, by simp only [len] at *; omega⟩

/-- Changing at most one object. -/
theorem Inv.update {s s' : Store α} {ext ext' : List Nat} (h : s.Inv ext) (t : Nat)
    (new : Option (Obj α))
    (hobjs : ∀ k o, s'.Live k o → (k ≠ t ∧ s.Live k o) ∨ (k = t ∧ new = some o))
    (hheap : ∀ k o b c, k ≠ t → s.Live k o → o.data = some b → s.Holds b c →
      ∃ c', s'.Holds b c' ∧ c'.length = c.length)
    (he : ∀ b ∈ ext, b ∈ ext')
    (he2 : ∀ k o b, k ≠ t → s.Live k o → o.owner = true → o.data = some b → b ∉ ext')
    (he3 : ∀ b ∈ ext', ∃ c, s'.Holds b c)
    (hnew : ∀ o, new = some o → s'.ObjOk ext' o)
    (huniq : ∀ o, new = some o → o.owner = true → ∀ b, o.data = some b → ∀ k o2, k ≠ t →
      s.Live k o2 → o2.owner = true → o2.data ≠ some b) : s'.Inv ext' := by
  refine ⟨?_, ?_, he3⟩
  · intro k o hk
    rcases hobjs k o hk with ⟨h1, h2⟩ | ⟨_, h2⟩
    · exact (h.objs k o h2).mono (fun b c hb hc => hheap k o b c h1 h2 hb hc) he
        (fun b ho hb => he2 k o b h1 h2 ho hb)
    · exact hnew o h2
  · intro i j oi oj b hi hj ho1 ho2 hb1 hb2
    rcases hobjs i oi hi with ⟨h1, h2⟩ | ⟨h1, h2⟩ <;> rcases hobjs j oj hj with ⟨h3, h4⟩ | ⟨h3, h4⟩
    · exact h.uniq i j oi oj b h2 h4 ho1 ho2 hb1 hb2
    · exact absurd hb1 (huniq oj h4 ho2 b hb2 i oi h1 h2 ho1)
    · exact absurd hb2 (huniq oi h2 ho1 b hb1 j oj h3 h4 ho2)
    · omega

/-- The heap never shrinks under `alloc`, and old blocks stay. -/
theorem holds_alloc {s : Store α} {cells : List α} {b : Nat} {c : List α} (h : s.Holds b c) :
    (s.alloc cells).1.Holds b c := by
  have := h.lt
  unfold Holds alloc at *
  simp only
  rw [List.getElem?_append_left this, h]

theorem holds_alloc_new (s : Store α) (cells : List α) :
    (s.alloc cells).1.Holds (s.alloc cells).2 cells := by
  unfold Holds alloc
  simp

/-- Releasing a block leaves the others. -/
theorem free_ok {s : Store α} {b : Nat} {c : List α} (h : s.Holds b c) :
    ∃ s', s.free (some b) = .ok s' ∧ s'.objs = s.objs ∧
      s'.heap.length = s.heap.length ∧ ∀ b' c', b' ≠ b → s.Holds b' c' → s'.Holds b' c' := by
  unfold free
  have h' : s.heap[b]? = some ⟨true, c⟩ := h
  simp only [h', if_true]
  refine ⟨_, rfl, rfl, by simp, ?_⟩
  intro b' c' hb hc
  unfold Holds at *
  simp only
  rw [List.getElem?_set_ne (fun h => hb h.symm)]
  exact hc

theorem inv_init : (SState.init : SState α).1.Inv (SState.init : SState α).2 := by
  constructor
  · intro i o h; simp [Live, SState.init] at h
  · intro i j oi oj b h; simp [Live, SState.init] at h
  · intro b h; simp [SState.init] at h

/-! ## Reading values -/

theorem readRange_ok {s : Store α} {b : Nat} {c : List α} (h : s.Holds b c) {off n : Int}
    (h0 : 0 ≤ off) (hn : 0 ≤ n) (h1 : off + n ≤ len c) :
    s.readRange (some b) off n = .ok ((c.drop off.toNat).take n.toNat) := by
  unfold readRange
  by_cases hz : n ≤ 0
  · have : n = 0 := by omega
    subst this
    simp
  · rw [if_neg hz, block_eq_ok.mpr ⟨b, rfl, h⟩]
    simp [h0, h1]

theorem ObjOk.read {s : Store α} {ext : List Nat} {o : Obj α} (h : s.ObjOk ext o) {b : Nat}
    (hb : o.data = some b) : ∃ c, s.Holds b c ∧ s.readRange o.data (o.off + o.start) o.length =
      .ok ((c.drop (o.off + o.start).toNat).take o.length.toNat) := by
  obtain ⟨h1, h2, c, h3, h4⟩ := h.window hb
  exact ⟨c, h3, by rw [hb]; exact readRange_ok h3 h2 h1 h4⟩

theorem values_eq {s : Store α} {i : Nat} {o : Obj α} (h : s.Live i o) :
    s.values i = s.readRange o.data (o.off + o.start) o.length := by
  unfold values
  rw [obj_eq_ok.mpr h]
  rfl

/-- Reading a range depends only on the block. -/
theorem readRange_congr {s s' : Store α} {p : Option Nat} {off n : Int}
    (h : ∀ b, p = some b → s'.heap[b]? = s.heap[b]?) : s'.readRange p off n = s.readRange p off n := by
  unfold readRange block
  rcases p with _ | b
  · rfl
  · simp only [h b rfl]

/-! ## The operations keep the invariant -/

/-- Appending one object. -/
theorem Inv.append {s s' : Store α} {ext : List Nat} (h : s.Inv ext) (o : Obj α)
    (hobjs : s'.objs = s.objs ++ [some o])
    (hheap : ∀ b c, s.Holds b c → s'.Holds b c)
    (hnew : s'.ObjOk ext o)
    (huniq : o.owner = true → ∀ b, o.data = some b → s.heap.length ≤ b) : s'.Inv ext := by
  refine h.update s.objs.length (some o) ?_ (fun k o b c _ _ _ hc => ⟨c, hheap b c hc, rfl⟩)
    (fun b hb => hb) ?_ ?_ ?_ ?_
  · intro k o' hk
    unfold Live at hk
    rw [hobjs] at hk
    by_cases hlt : k < s.objs.length
    · rw [List.getElem?_append_left hlt] at hk
      exact Or.inl ⟨by omega, hk⟩
    · rw [List.getElem?_append_right (by omega)] at hk
      right
      have : k - s.objs.length = 0 := by
        by_contra hne
        rw [List.getElem?_eq_none (by simp; omega)] at hk
        cases hk
      refine ⟨by omega, ?_⟩
      rw [this] at hk
      simpa using hk
  · intro k o' b _ hk ho hb
    exact ((h.objs k o' hk).own ho).2.2.2 b hb |>.1
  · intro b hb
    obtain ⟨c, hc⟩ := h.ext b hb
    exact ⟨c, hheap b c hc⟩
  · rintro o' ho
    cases ho
    exact hnew
  · rintro o' ho hown b hb k o2 _ hk ho2 hb2
    cases ho
    have h1 := huniq hown b hb
    obtain ⟨_, c, hc, _⟩ := ((h.objs k o2 hk).own ho2).2.2.2 b hb2
    have := hc.lt
    omega

theorem live_append_old {s s' : Store α} {o : Obj α} (hobjs : s'.objs = s.objs ++ [some o])
    {k : Nat} {o' : Obj α} (h : s.Live k o') : s'.Live k o' := by
  have hl := (List.getElem?_eq_some_iff.mp h).1
  unfold Live
  rw [hobjs, List.getElem?_append_left hl]
  exact h

theorem live_append_new {s s' : Store α} {o : Obj α} (hobjs : s'.objs = s.objs ++ [some o]) :
    s'.Live s.objs.length o := by
  unfold Live
  rw [hobjs]
  simp

theorem inv_newOwned {s : Store α} {ext : List Nat} (h : s.Inv ext) {n : Int} (hn : 0 ≤ n) :
    ∃ s', s.newOwned n = .ok (s', s.objs.length) ∧ s'.Inv ext ∧
      (∀ b c, s.Holds b c → s'.Holds b c) ∧
      ∃ o, s'.objs = s.objs ++ [some o] ∧ o.owner = true ∧ o.cache = none ∧
        s'.values s.objs.length = .ok (List.replicate n.toNat DataT.zero) := by
  unfold newOwned
  rw [if_neg (by omega)]
  have hnew := holds_alloc_new s (List.replicate n.toNat (DataT.zero : α))
  refine ⟨_, rfl, ?_, fun b c hc => holds_alloc (cells := List.replicate n.toNat DataT.zero) hc,
    _, rfl, rfl, rfl, ?_⟩
  · refine h.append _ rfl (fun b c hc => holds_alloc (cells := List.replicate n.toNat DataT.zero) hc) ?_ ?_
    · constructor
      · intro _
        refine ⟨hn, rfl, rfl, ?_⟩
        intro b hb
        simp only [Option.some.injEq] at hb
        subst hb
        refine ⟨?_, _, hnew, by simp; omega⟩
        intro hmem
        obtain ⟨c, hc⟩ := h.ext _ hmem
        have := hc.lt
        simp at this
      · intro hf
        cases hf
    · intro _ b hb
      simp only [Option.some.injEq] at hb
      subst hb
      simp
  · rw [values_eq (live_append_new (s := s) rfl)]
    refine (readRange_ok (b := s.heap.length) (c := List.replicate n.toNat (DataT.zero : α)) hnew
      (by simp) hn (by rw [len_replicate]; simp)).trans ?_
    simp

theorem inv_newExt {s : Store α} {ext : List Nat} (h : s.Inv ext) (cells : List α) :
    (s.alloc cells).1.Inv ((s.alloc cells).2 :: ext) := by
  have hb2 : (s.alloc cells).2 = s.heap.length := rfl
  refine ⟨?_, ?_, ?_⟩
  · intro i o hi
    refine (h.objs i o hi).mono (fun b c _ hc => ⟨c, holds_alloc hc, rfl⟩)
      (fun b hb => List.mem_cons_of_mem _ hb) ?_
    intro b ho hb hmem
    obtain ⟨hne, c, hc, _⟩ := ((h.objs i o hi).own ho).2.2.2 b hb
    rcases List.mem_cons.mp hmem with h1 | h1
    · have := hc.lt
      omega
    · exact hne h1
  · intro i j oi oj b hi hj
    exact h.uniq i j oi oj b hi hj
  · intro b hb
    rcases List.mem_cons.mp hb with h1 | h1
    · rw [h1]
      exact ⟨cells, holds_alloc_new s cells⟩
    · obtain ⟨c, hc⟩ := h.ext b h1
      exact ⟨c, holds_alloc hc⟩

theorem inv_newView {s : Store α} {ext : List Nat} (h : s.Inv ext) {b : Nat} {c : List α}
    {off start stop : Int} (index : Int) (hb : b ∈ ext) (hc : s.Holds b c) (h0 : 0 ≤ off + start)
    (h1 : start ≤ stop) (h2 : off + stop ≤ len c) :
    (s.newView b off index start stop).1.Inv ext := by
  refine h.append _ rfl (fun b c hc => hc) ?_ ?_
  · constructor
    · intro hf; cases hf
    · intro _ b' hb'
      simp only [Option.some.injEq] at hb'
      subst hb'
      exact ⟨hb, by simp only; omega, h0, c, hc, by simp only; omega⟩
  · intro hf; cases hf

/-- `copyInto` allocates a fresh block for owners and aliases views. -/
theorem copyInto_ok {s : Store α} {ext : List Nat} {o : Obj α} (ho : s.ObjOk ext o)
    (hd : o.data ≠ none) (cache : Option (Cache α)) :
    ∃ s' o', s.copyInto o cache = .ok (s', o') ∧ s'.objs = s.objs ∧
      (∀ b c, s.Holds b c → s'.Holds b c) ∧
      ((∀ b ∈ ext, b < s.heap.length) → s'.ObjOk ext o') ∧
      o'.cache = cache ∧ o'.owner = o.owner ∧
      (o.owner = true → o'.data = some s.heap.length) ∧
      (o.owner = false → o'.data = o.data ∧ s' = s) ∧
      o'.length = o.length ∧ o'.start = o.start ∧ o'.stop = o.stop ∧ o'.index = o.index ∧
      s'.readRange o'.data (o'.off + o'.start) o'.length =
        s.readRange o.data (o.off + o.start) o.length := by
  obtain ⟨b, hb⟩ := Option.ne_none_iff_exists'.mp hd
  obtain ⟨c, hc, hread⟩ := ho.read hb
  unfold copyInto
  by_cases how : o.owner = true
  · obtain ⟨hl, hoff, hst, hdat⟩ := ho.own how
    obtain ⟨_, c', hc', hlen⟩ := hdat b hb
    have : c' = c := hc'.inj hc
    subst this
    have hr : s.readRange o.data o.off o.length = .ok c' := by
      rw [hb, hoff, readRange_ok hc (by omega) hl (by omega)]
      have : o.length.toNat = c'.length := by simp only [len] at hlen; omega
      simp [this]
    simp only [how, if_true, if_neg (show ¬ o.length < 0 by omega), hr, Res.bind_ok]
    have hnew := holds_alloc_new s c'
    refine ⟨_, _, rfl, rfl, fun b c h => holds_alloc h, ?_, rfl, rfl, fun _ => rfl, fun h => (by cases h),
      rfl, rfl, rfl, rfl, ?_⟩
    · intro hext
      constructor
      · intro _
        refine ⟨hl, rfl, hst, ?_⟩
        intro b' hb'
        simp only [Option.some.injEq] at hb'
        subst hb'
        refine ⟨fun hmem => ?_, c', hnew, hlen⟩
        have := hext _ hmem
        simp [alloc] at this
      · intro hf
        cases hf
    · refine (readRange_ok hnew (by simp; omega) hl (by simp; omega)).trans ?_
      rw [hread, hoff]
  · simp only [Bool.not_eq_true] at how
    simp only [how, Bool.false_eq_true, if_false, Res.pure_eq]
    refine ⟨_, _, rfl, rfl, fun b c h => h, ?_, rfl, rfl, fun h => (by cases h), fun _ => ⟨rfl, rfl⟩,
      rfl, rfl, rfl, rfl, rfl⟩
    intro _
    exact ⟨fun hf => (by cases hf), fun _ => ho.view how⟩

theorem ext_lt {s : Store α} {ext : List Nat} (h : s.Inv ext) : ∀ b ∈ ext, b < s.heap.length := by
  intro b hb
  obtain ⟨c, hc⟩ := h.ext b hb
  exact hc.lt

theorem inv_copy {s : Store α} {ext : List Nat} (h : s.Inv ext) {j : Nat} {o : Obj α}
    (hj : s.Live j o) (hd : o.data ≠ none) :
    ∃ s' o', s.copy j = .ok (s', s.objs.length) ∧ s'.Inv ext ∧ (∀ b c, s.Holds b c → s'.Holds b c) ∧
      s'.objs = s.objs ++ [some o'] ∧ o'.owner = o.owner ∧ o'.cache = none ∧
      s'.values s.objs.length = s.values j := by
  obtain ⟨s1, o', h1, h2, h3, h4, h5, h6, h7, h8, h9, h10, h11, h12, h13⟩ :=
    copyInto_ok (h.objs j o hj) hd none
  unfold copy
  rw [obj_eq_ok.mpr hj]
  simp only [Res.bind_ok, h1, Res.pure_eq, h2]
  refine ⟨_, o', rfl, ?_, h3, rfl, h6, h5, ?_⟩
  · refine h.append o' rfl h3 ?_ ?_
    · exact (h4 (ext_lt h)).mono (fun b c _ hc => ⟨c, hc, rfl⟩) (fun b hb => hb)
        (fun b ho hb => ((h4 (ext_lt h)).own ho).2.2.2 b hb |>.1)
    · intro ho b hb
      rw [h7 (h6 ▸ ho)] at hb
      cases hb
      exact le_refl _
  · rw [values_eq (live_append_new (s := s) rfl), values_eq hj]
    exact h13

/-- What releasing the data of an object does. -/
theorem release_ok {s : Store α} {ext : List Nat} (h : s.Inv ext) {i : Nat} {t : Obj α}
    (hi : s.Live i t) : ∃ s1, (if t.owner = true then s.free t.data else pure s) = .ok s1 ∧
      s1.objs = s.objs ∧ s1.heap.length = s.heap.length ∧
      (∀ b ∈ ext, ∀ c, s.Holds b c → s1.Holds b c) ∧
      (∀ k ok b c, k ≠ i → s.Live k ok → ok.data = some b → s.Holds b c → s1.Holds b c) ∧
      (t.owner = false → s1 = s) := by
  by_cases how : t.owner = true
  · rw [if_pos how]
    rcases hb : t.data with _ | b
    · exact ⟨s, rfl, rfl, rfl, fun _ _ _ h => h, fun _ _ _ _ _ _ _ h => h, fun _ => rfl⟩
    · obtain ⟨hne, c, hc, _⟩ := ((h.objs i t hi).own how).2.2.2 b hb
      obtain ⟨s1, h1, h2, h3, h4⟩ := free_ok hc
      refine ⟨s1, h1, h2, h3, ?_, ?_, fun hf => by rw [how] at hf; cases hf⟩
      · intro b' hb' c' hc'
        exact h4 b' c' (fun he => hne (he ▸ hb')) hc'
      · intro k ok b' c' hk hlive hdat hc'
        refine h4 b' c' ?_ hc'
        rintro rfl
        by_cases hok : ok.owner = true
        · exact hk (h.uniq k i ok t b' hlive hi hok how hdat hb)
        · exact hne ((h.objs k ok hlive).view (by simpa using hok) b' hdat).1
  · rw [if_neg how]
    exact ⟨s, rfl, rfl, rfl, fun _ _ _ h => h, fun _ _ _ _ _ _ _ h => h, fun _ => rfl⟩

/-- Copy assignment to another object. -/
theorem inv_copyAssign {s : Store α} {ext : List Nat} (h : s.Inv ext) {i j : Nat} {t o : Obj α}
    (hi : s.Live i t) (hj : s.Live j o) (hd : o.data ≠ none) (hij : i ≠ j ∨ t.owner = false) :
    ∃ s' o', s.copyAssign i j = .ok s' ∧ s'.Inv ext ∧ s'.objs = s.objs.set i (some o') ∧
      o'.owner = o.owner ∧ o'.cache = t.cache ∧ s'.values i = s.values j ∧
      ∀ k ok b c, k ≠ i → s.Live k ok → ok.data = some b → s.Holds b c → s'.Holds b c := by
  obtain ⟨s1, h1, h2, h3, h4, h5, h6⟩ := release_ok h hi
  have hoheap : ∀ b c, o.data = some b → s.Holds b c → s1.Holds b c := by
    intro b c hb hc
    rcases hij with hne | how
    · exact h5 j o b c (fun he => hne he.symm) hj hb hc
    · rw [h6 how]; exact hc
  have hook : s1.ObjOk ext o := (h.objs j o hj).mono
    (fun b c hb hc => ⟨c, hoheap b c hb hc, rfl⟩) (fun b hb => hb)
    (fun b ho hb => ((h.objs j o hj).own ho).2.2.2 b hb |>.1)
  obtain ⟨s2, o', g1, g2, g3, g4, g5, g6, g7, g8, _, _, _, _, g13⟩ := copyInto_ok hook hd t.cache
  have hj1 : s1.obj j = .ok o := by
    rw [obj_eq_ok]
    unfold Live
    rw [h2]
    exact hj
  have hext1 : ∀ b ∈ ext, b < s1.heap.length := by
    intro b hb
    rw [h3]
    exact ext_lt h b hb
  unfold copyAssign
  rw [obj_eq_ok.mpr hi]
  simp only [Res.bind_ok]
  rw [Res.ite_bind_eq h1]
  simp only [hj1, Res.bind_ok, g1, Res.pure_eq]
  refine ⟨_, o', rfl, ?_, ?_, g6, g5, ?_, ?_⟩
  · refine h.update i (some o') ?_ ?_ (fun b hb => hb) ?_ ?_ ?_ ?_
    · intro k ok hk
      rcases live_setObj hk with ⟨a1, a2⟩ | ⟨a1, a2⟩
      · left
        refine ⟨a1, ?_⟩
        unfold Live at a2 ⊢
        rwa [g2, h2] at a2
      · exact Or.inr ⟨a1, a2⟩
    · intro k ok b c hk hlive hb hc
      exact ⟨c, g3 b c (h5 k ok b c hk hlive hb hc), rfl⟩
    · intro k ok b _ hlive ho hb
      exact ((h.objs k ok hlive).own ho).2.2.2 b hb |>.1
    · intro b hb
      obtain ⟨c, hc⟩ := h.ext b hb
      exact ⟨c, g3 b c (h4 b hb c hc)⟩
    · rintro o2 ho2
      cases ho2
      exact (g4 hext1).mono (fun b c _ hc => ⟨c, hc, rfl⟩) (fun b hb => hb)
        (fun b ho hb => ((g4 hext1).own ho).2.2.2 b hb |>.1)
    · rintro o2 ho2 hown b hb k ok _ hlive hok hbk
      cases ho2
      rw [g7 (g6 ▸ hown)] at hb
      obtain ⟨_, c, hc, _⟩ := ((h.objs k ok hlive).own hok).2.2.2 b hbk
      have := hc.lt
      cases hb
      omega
  · unfold setObj
    simp only [g2, h2]
  · have hl : s2.Live i t := by
      unfold Live
      rw [g2, h2]
      exact hi
    rw [values_eq (setObj_live_self hl), values_eq hj]
    refine Eq.trans ?_ (g13.trans ?_)
    · exact readRange_congr (fun b _ => rfl)
    · obtain ⟨b, hb⟩ := Option.ne_none_iff_exists'.mp hd
      obtain ⟨c, hc, hread⟩ := (h.objs j o hj).read hb
      obtain ⟨c', hc', hread'⟩ := hook.read hb
      have : c' = c := hc'.inj (hoheap b c hb hc)
      subst this
      rw [hread, hread']
  · intro k ok b c hk hlive hb hc
    exact g3 b c (h5 k ok b c hk hlive hb hc)

theorem setObj_self_live {s : Store α} {i : Nat} {o' t : Obj α} (h : s.Live i t) {o : Obj α}
    (h' : (s.setObj i (some o')).Live i o) : o = o' := by
  have := setObj_live_self (o' := o') h
  unfold Live at this h'
  rw [this] at h'
  simpa using h'.symm

/-- Replacing an object by one with no data, or by one of the same description. -/
theorem inv_setObj {s : Store α} {ext : List Nat} (h : s.Inv ext) {i : Nat} {n : Option (Obj α)}
    (hn : ∀ o, n = some o → s.ObjOk ext o)
    (hu : ∀ o, n = some o → o.owner = true → ∀ b, o.data = some b → ∀ k o2, k ≠ i →
      s.Live k o2 → o2.owner = true → o2.data ≠ some b) : (s.setObj i n).Inv ext := by
  refine h.update i n (fun k o hk => live_setObj hk) (fun k o b c _ _ _ hc => ⟨c, hc, rfl⟩)
    (fun b hb => hb) ?_ (fun b hb => h.ext b hb) ?_ hu
  · intro k o b _ hlive ho hb
    exact ((h.objs k o hlive).own ho).2.2.2 b hb |>.1
  · intro o ho
    exact (hn o ho).mono (fun b c _ hc => ⟨c, hc, rfl⟩) (fun b hb => hb)
      (fun b hown hb => ((hn o ho).own hown).2.2.2 b hb |>.1)

theorem ObjOk.nodata {s : Store α} {ext : List Nat} {o : Obj α} (h : s.ObjOk ext o)
    (cache : Option (Cache α)) : s.ObjOk ext { o with data := none, cache := cache } := by
  constructor
  · intro ho
    obtain ⟨h1, h2, h3, _⟩ := h.own ho
    exact ⟨h1, h2, h3, fun b hb => by cases hb⟩
  · intro _ b hb
    cases hb

theorem ObjOk.recache {s : Store α} {ext : List Nat} {o : Obj α} (h : s.ObjOk ext o)
    (cache : Option (Cache α)) : s.ObjOk ext { o with cache := cache } := ⟨h.own, h.view⟩

/-- Move assignment. -/
theorem inv_moveAssign {s : Store α} {ext : List Nat} (h : s.Inv ext) {i j : Nat} {t o : Obj α}
    (hi : s.Live i t) (hj : s.Live j o) :
    ∃ s', s.moveAssign i j = .ok s' ∧ s'.Inv ext ∧ s'.heap = s.heap ∧
      (i ≠ j → s'.objs = (s.objs.set i (some { o with cache := t.cache })).set j
        (some { o with data := none })) ∧
      (i = j → s'.objs = (s.objs.set i (some { o with data := none, cache := t.cache }))) := by
  unfold moveAssign
  rw [obj_eq_ok.mpr hi, obj_eq_ok.mpr hj]
  simp only [Res.bind_ok]
  by_cases hij : i = j
  · subst hij
    have e : t = o := by
      unfold Live at hi hj
      rw [hi] at hj
      simpa using hj
    subst e
    rw [obj_eq_ok.mpr (setObj_live_self hi)]
    simp only [Res.bind_ok, Res.pure_eq]
    have e2 : (s.setObj i (some t)).setObj i (some { t with data := none }) =
        s.setObj i (some { t with data := none }) := by
      unfold setObj
      simp
    refine ⟨_, rfl, ?_, rfl, fun hf => absurd rfl hf, fun _ => ?_⟩
    · rw [e2]
      refine inv_setObj h ?_ ?_
      · rintro o2 ho2
        cases ho2
        exact (h.objs i t hi).nodata t.cache
      · rintro o2 ho2 _ b hb
        cases ho2
        cases hb
    · rw [e2]
      rfl
  · rw [obj_eq_ok.mpr (setObj_live_ne (fun he => hij he.symm) hj)]
    simp only [Res.bind_ok, Res.pure_eq]
    refine ⟨_, rfl, ?_, rfl, fun _ => rfl, fun hf => absurd hf hij⟩
    have e2 : (s.setObj i (some { o with cache := t.cache })).setObj j (some { o with data := none }) =
        (s.setObj j (some { o with data := none })).setObj i (some { o with cache := t.cache }) := by
      unfold setObj
      simp only
      rw [List.set_comm _ _ hij]
    rw [e2]
    have h1 : (s.setObj j (some { o with data := none })).Inv ext := by
      refine inv_setObj h ?_ ?_
      · rintro o2 ho2
        cases ho2
        exact (h.objs j o hj).nodata o.cache
      · rintro o2 ho2 _ b hb
        cases ho2
        cases hb
    refine inv_setObj h1 ?_ ?_
    · rintro o2 ho2
      cases ho2
      exact ((h.objs j o hj).recache t.cache).mono (fun b c _ hc => ⟨c, hc, rfl⟩) (fun b hb => hb)
        (fun b hown hb => ((h.objs j o hj).own hown).2.2.2 b hb |>.1)
    · rintro o2 ho2 hown b hb k ok hk hlive hok hbk
      cases ho2
      rcases live_setObj hlive with ⟨a1, a2⟩ | ⟨a1, a2⟩
      · exact a1 (h.uniq k j ok o b a2 hj hok hown hbk hb)
      · cases a2
        cases hbk

/-- Destruction. -/
theorem inv_destroy {s : Store α} {ext : List Nat} (h : s.Inv ext) {i : Nat} {t : Obj α}
    (hi : s.Live i t) :
    ∃ s', s.destroy i = .ok s' ∧ s'.Inv ext ∧ s'.objs = s.objs.set i none ∧
      ∀ k ok b c, k ≠ i → s.Live k ok → ok.data = some b → s.Holds b c → s'.Holds b c := by
  obtain ⟨s1, h1, h2, h3, h4, h5, h6⟩ := release_ok h hi
  unfold destroy
  rw [obj_eq_ok.mpr hi]
  simp only [Res.bind_ok]
  rw [Res.ite_bind_eq h1]
  simp only [Res.pure_eq]
  refine ⟨_, rfl, ?_, by unfold setObj; simp only [h2], fun k ok b c hk hl hb hc => h5 k ok b c hk hl hb hc⟩
  refine h.update i none ?_ (fun k ok b c hk hl hb hc => ⟨c, h5 k ok b c hk hl hb hc, rfl⟩)
    (fun b hb => hb) ?_ ?_ (fun o ho => by cases ho) (fun o ho => by cases ho)
  · intro k ok hk
    rcases live_setObj hk with ⟨a1, a2⟩ | ⟨a1, a2⟩
    · left
      refine ⟨a1, ?_⟩
      unfold Live at a2 ⊢
      rwa [h2] at a2
    · exact Or.inr ⟨a1, a2⟩
  · intro k ok b _ hlive ho hb
    exact ((h.objs k ok hlive).own ho).2.2.2 b hb |>.1
  · intro b hb
    obtain ⟨c, hc⟩ := h.ext b hb
    exact ⟨c, h4 b hb c hc⟩

/-! ## Writing -/

theorem poke_ok {s : Store α} {b : Nat} {c : List α} (hc : s.Holds b c) {pos : Int} (v : α)
    (h0 : 0 ≤ pos) (h1 : pos < len c) :
    ∃ s', s.poke (some b) pos v = .ok s' ∧ s'.objs = s.objs ∧
      s'.Holds b (c.set pos.toNat v) ∧ (∀ b', b' ≠ b → s'.heap[b']? = s.heap[b']?) := by
  unfold poke
  simp only [block_eq_ok.mpr ⟨b, rfl, hc⟩, Res.bind_ok, vset_ok v h0 h1, Res.pure_eq]
  refine ⟨_, rfl, rfl, ?_, ?_⟩
  · have := hc.lt
    unfold Holds
    simp [this]
  · intro b' hb
    simp only
    rw [List.getElem?_set_ne (fun h => hb h.symm)]

/-- A store with the same objects in which one block has new contents of the same length. -/
theorem Inv.rewrite {s s' : Store α} {ext : List Nat} (h : s.Inv ext) {b : Nat} {c c' : List α}
    (hobjs : s'.objs = s.objs) (hc : s.Holds b c) (hc' : s'.Holds b c')
    (hlen : c'.length = c.length) (hne : ∀ b', b' ≠ b → s'.heap[b']? = s.heap[b']?) : s'.Inv ext := by
  have hh : ∀ b1 c1, s.Holds b1 c1 → ∃ c2, s'.Holds b1 c2 ∧ c2.length = c1.length := by
    intro b1 c1 h1
    by_cases hb : b1 = b
    · subst hb
      have : c1 = c := h1.inj hc
      subst this
      exact ⟨c', hc', hlen⟩
    · refine ⟨c1, ?_, rfl⟩
      unfold Holds
      rw [hne b1 hb]
      exact h1
  have hl : ∀ k o, s'.Live k o ↔ s.Live k o := by
    intro k o
    unfold Live
    rw [hobjs]
  refine ⟨?_, ?_, ?_⟩
  · intro k o hk
    rw [hl] at hk
    exact (h.objs k o hk).mono (fun b c _ hc => hh b c hc) (fun b hb => hb)
      (fun b ho hb => ((h.objs k o hk).own ho).2.2.2 b hb |>.1)
  · intro i j oi oj b hi hj
    rw [hl] at hi hj
    exact h.uniq i j oi oj b hi hj
  · intro b1 hb1
    obtain ⟨c1, h1⟩ := h.ext b1 hb1
    obtain ⟨c2, h2, _⟩ := hh b1 c1 h1
    exact ⟨c2, h2⟩

/-- Writing an element. -/
theorem inv_put {s : Store α} {ext : List Nat} (h : s.Inv ext) {i : Nat} {o : Obj α} {b : Nat}
    (hi : s.Live i o) (hb : o.data = some b) {idx : Int} (v : α) (h0 : 0 ≤ idx)
    (h1 : idx < o.length) :
    ∃ s' c, s.Holds b c ∧ s.put i idx v = .ok s' ∧ s'.Inv ext ∧ s'.objs = s.objs ∧
      s'.Holds b (c.set (o.off + o.start + idx).toNat v) ∧
      (∀ b', b' ≠ b → s'.heap[b']? = s.heap[b']?) := by
  obtain ⟨a1, a2, c, hc, a3⟩ := (h.objs i o hi).window hb
  obtain ⟨s', e1, e2, e3, e4⟩ := poke_ok hc (pos := o.off + o.start + idx) v (by omega) (by omega)
  refine ⟨s', c, hc, ?_, h.rewrite e2 hc e3 (by simp) e4, e2, e3, e4⟩
  unfold put
  rw [obj_eq_ok.mpr hi]
  simp only [Res.bind_ok]
  rw [if_neg (by omega), hb]
  exact e1

/-- Reading an element. -/
theorem get_ok {s : Store α} {j : Nat} {p : Obj α} {b : Nat} {c : List α} (hj : s.Live j p)
    (hb : p.data = some b) (hc : s.Holds b c) {k : Int} (h0 : 0 ≤ k) (h1 : k < p.length) :
    s.get j k = vget c (p.off + p.start + k) := by
  unfold get
  rw [obj_eq_ok.mpr hj]
  simp only [Res.bind_ok]
  rw [if_neg (by omega), block_eq_ok.mpr ⟨b, hb, hc⟩]
  rfl

/-- The windows of the two operands of `+=` do not make it read what it wrote. -/
def NoOverlap (o p : Obj α) : Prop :=
  o.data ≠ p.data ∨ o.off + o.start ≤ p.off + p.start ∨
    p.off + p.start + p.length ≤ o.off + o.start

/-- The sum of two cells. -/
def addCell (x y : Option α) : Option α :=
  match x, y with
  | some x, some y => some (DataT.add x y)
  | _, _ => none

theorem addAssign_spec {s : Store α} {ext : List Nat} (h : s.Inv ext) {i j : Nat} {o p : Obj α}
    {ba bp : Nat} {ca cp : List α} (hi : s.Live i o) (hj : s.Live j p) (hba : o.data = some ba)
    (hbp : p.data = some bp) (hca : s.Holds ba ca) (hcp : s.Holds bp cp)
    (hlen : p.length = o.length) :
    ∃ s' c', s.addAssign i j = .ok s' ∧ s'.objs = s.objs.set i (some { o with cache := none }) ∧
      s'.Inv ext ∧
      s'.Holds ba c' ∧ c'.length = ca.length ∧ (∀ b', b' ≠ ba → s'.heap[b']? = s.heap[b']?) ∧
      (∀ q : Nat, ¬ (o.off + o.start ≤ q ∧ (q : Int) < o.off + o.start + o.length) →
        c'[q]? = ca[q]?) ∧
      (NoOverlap o p → ∀ q : Nat, (o.off + o.start ≤ q ∧ (q : Int) < o.off + o.start + o.length) →
        c'[q]? = addCell ca[q]? cp[(p.off + p.start + (q - (o.off + o.start))).toNat]?) := by
  obtain ⟨a1, a2, ca', hca', a3⟩ := (h.objs i o hi).window hba
  obtain ⟨b1, b2, cp', hcp', b3⟩ := (h.objs j p hj).window hbp
  have e1 : ca' = ca := hca'.inj hca
  have e2 : cp' = cp := hcp'.inj hcp
  subst e1 e2
  have loop : (forInt 0 o.length s fun k s => do
      let c ← s.block o.data
      let x ← vget c (o.off + o.start + k)
      let y ← s.get j k
      s.poke o.data (o.off + o.start + k) (DataT.add x y)).Ensures fun st =>
      st.objs = s.objs ∧ ∃ c, st.Holds ba c ∧ c.length = ca'.length ∧
        (∀ b', b' ≠ ba → st.heap[b']? = s.heap[b']?) ∧
        (∀ q : Nat, ¬ (o.off + o.start ≤ q ∧ (q : Int) < o.off + o.start + o.length) →
          c[q]? = ca'[q]?) ∧
        (NoOverlap o p → ∀ q : Nat, c[q]? =
          if o.off + o.start ≤ q ∧ (q : Int) < o.off + o.start + o.length then
            addCell ca'[q]? cp'[(p.off + p.start + (q - (o.off + o.start))).toNat]?
          else ca'[q]?) := by
    refine forInt_ensures (fun (k : Int) (st : Store α) => st.objs = s.objs ∧ ∃ c, st.Holds ba c ∧
        c.length = ca'.length ∧ (∀ b', b' ≠ ba → st.heap[b']? = s.heap[b']?) ∧
        (∀ q : Nat, ¬ (o.off + o.start ≤ q ∧ (q : Int) < o.off + o.start + o.length) →
          c[q]? = ca'[q]?) ∧
        (NoOverlap o p → ∀ q : Nat, c[q]? =
          if o.off + o.start ≤ q ∧ (q : Int) < o.off + o.start + k then
            addCell ca'[q]? cp'[(p.off + p.start + (q - (o.off + o.start))).toNat]?
          else ca'[q]?)) a1 ?_ ?_
    · refine ⟨rfl, ca', hca, rfl, fun _ _ => rfl, fun _ _ => rfl, ?_⟩
      intro _ q
      rw [if_neg (by omega)]
    · rintro k st hk1 hk2 ⟨ho, c, hc, hcl, hne, hout, hov⟩
      have hlc : len c = len ca' := by simp only [len]; omega
      obtain ⟨x, hx, hx'⟩ := vget_ok (l := c) (i := o.off + o.start + k) (by omega) (by omega)
      -- the block of `p` now
      have hj' : st.Live j p := by
        unfold Live
        rw [ho]
        exact hj
      have hy : ∃ cq y, st.Holds bp cq ∧ cq.length = cp'.length ∧
          vget cq (p.off + p.start + k) = .ok y ∧ cq[(p.off + p.start + k).toNat]? = some y ∧
          (NoOverlap o p → cp'[(p.off + p.start + k).toNat]? = some y) := by
        by_cases hbb : bp = ba
        · subst hbb
          have e : ca' = cp' := hca.inj hcp
          obtain ⟨y, hy1, hy2⟩ := vget_ok (l := c) (i := p.off + p.start + k) (by omega)
            (by rw [hlc, e]; omega)
          refine ⟨c, y, hc, by rw [hcl, e], hy1, hy2, ?_⟩
          intro hno
          have := hov hno (p.off + p.start + k).toNat
          rw [hy2] at this
          rw [if_neg, e] at this
          · exact this.symm
          · rcases hno with h1 | h1 | h1
            · exact absurd (hba.trans hbp.symm) h1
            · omega
            · omega
        · have hcq : st.Holds bp cp' := by
            unfold Holds
            rw [hne bp hbb]
            exact hcp
          obtain ⟨y, hy1, hy2⟩ := vget_ok (l := cp') (i := p.off + p.start + k) (by omega) (by omega)
          exact ⟨cp', y, hcq, rfl, hy1, hy2, fun _ => hy2⟩
      obtain ⟨cq, y, hcq, _, hy1, _, hy3⟩ := hy
      have hg : st.get j k = .ok y := by
        rw [get_ok hj' hbp hcq hk1 (by omega), hy1]
      obtain ⟨s', p1, p2, p3, p4⟩ := poke_ok hc (pos := o.off + o.start + k) (DataT.add x y)
        (by omega) (by omega)
      rw [block_eq_ok.mpr ⟨ba, hba, hc⟩]
      simp only [Res.bind_ok, hx, hg]
      rw [hba, p1]
      refine ⟨s', rfl, by rw [p2, ho], _, p3, by simp [hcl], ?_, ?_, ?_⟩
      · intro b' hb'
        rw [p4 b' hb', hne b' hb']
      · intro q hq
        rw [List.getElem?_set_ne (by omega), hout q hq]
      · intro hno q
        by_cases hq : q = (o.off + o.start + k).toNat
        · subst hq
          have hlt : (o.off + o.start + k).toNat < c.length := by
            simp only [len] at hlc a3 ⊢; omega
          rw [List.getElem?_set_self hlt, if_pos (by omega)]
          have hcx := hov hno (o.off + o.start + k).toNat
          rw [if_neg (by omega), hx'] at hcx
          rw [← hcx]
          have e : (p.off + p.start + (((o.off + o.start + k).toNat : Int) - (o.off + o.start))).toNat =
              (p.off + p.start + k).toNat := by omega
          rw [e, hy3 hno]
          rfl
        · rw [List.getElem?_set_ne (fun he => hq he.symm), hov hno q]
          by_cases hin : o.off + o.start ≤ q ∧ (q : Int) < o.off + o.start + k
          · rw [if_pos hin, if_pos (by omega)]
          · rw [if_neg hin, if_neg (by omega)]
  obtain ⟨st, hst, ho, c, hc, hcl, hne, hout, hov⟩ := loop
  unfold addAssign
  rw [obj_eq_ok.mpr hi, obj_eq_ok.mpr hj]
  simp only [Res.bind_ok, hlen, ne_eq, not_true, if_false]
  rw [hst]
  simp only [Res.bind_ok, Res.pure_eq]
  have hinv : st.Inv ext := h.rewrite ho hca hc hcl hne
  have hi' : st.Live i o := by
    unfold Live
    rw [ho]
    exact hi
  refine ⟨_, c, rfl, by unfold setObj; simp only [ho], ?_, hc, hcl, hne, hout, ?_⟩
  · refine inv_setObj hinv ?_ ?_
    · rintro o2 ho2
      cases ho2
      exact (hinv.objs i o hi').recache none
    · rintro o2 ho2 hown b hb k ok hk hlive hok hbk
      cases ho2
      exact hk (hinv.uniq k i ok o b hlive hi' hok hown hbk hb)
  · intro hno q hq
    rw [hov hno q, if_pos hq]

end Store

end Onex
