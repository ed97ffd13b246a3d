import Verif.Proofs.SearchAll
import Verif.Props.Grouping
import Verif.Spec.GroupSet

/-!
# States in which matches are answered
-/

namespace Onex
open DataT Spec

section any
variable {α : Type} [DataT α]

theorem highStop_high (ratio : α) (q : Int) {s : OrderState} (h : s.highStop = true) :
    highHalf ratio q s = .ok s := by
  unfold highHalf
  rw [h]
  rfl

theorem lowHalf_keeps (ratio : α) (q : Int) {s s' : OrderState} (h : lowHalf ratio q s = .ok s') :
    s'.high = s.high ∧ s'.highStop = s.highStop := by
  unfold lowHalf at h
  split at h
  · obtain ⟨r, _, h⟩ := Res.bind_eq_ok.mp h
    split at h <;> (simp only [Res.pure_eq, Res.ok.injEq] at h; subst h; exact ⟨rfl, rfl⟩)
  · simp only [Res.pure_eq, Res.ok.injEq] at h
    subst h
    exact ⟨rfl, rfl⟩

/-- For a query longer than the dataset the order is that for a dataset of the query's length. -/
theorem traverseLoop_long (ratio : α) (q N : Int) (hN : N ≤ q) : ∀ (fuel : Nat) (s : OrderState),
    s.high = q + 1 → traverseLoop ratio q N fuel s = traverseLoop ratio q q fuel s
  | 0, s, _ => by unfold traverseLoop; rfl
  | fuel + 1, s, h => by
    unfold traverseLoop
    split
    · rfl
    · simp only
      have hm : markStops N s = markStops q s ∧ (markStops q s).highStop = true ∧ (markStops q s).high = q + 1 := by
        unfold markStops
        by_cases c : s.low < 2
        · simp only [c, if_true, h]
          rw [if_pos (by omega), if_pos (by omega)]
          exact ⟨rfl, rfl, rfl⟩
        · simp only [c, if_false, h]
          rw [if_pos (by omega), if_pos (by omega)]
          exact ⟨rfl, rfl, rfl⟩
      rw [traverseStep_eq, traverseStep_eq, hm.1]
      rcases hl : lowHalf ratio q (markStops q s) with s1 | e | w
      · obtain ⟨k1, k2⟩ := lowHalf_keeps ratio q hl
        rw [Res.bind_ok, highStop_high _ _ (by rw [k2]; exact hm.2.1), Res.bind_ok, Res.bind_ok]
        exact traverseLoop_long ratio q N hN fuel s1 (by rw [k1]; exact hm.2.2)
      · rfl
      · rfl

end any

variable {ρ : Rounding}

theorem traverse_long {ratio : ℝ} {q : Nat} {N : Int} (hfit : ∀ l ≤ q, RatioOk ρ ratio l) (hq : 2 ≤ q) (hN : N ≤ q) :
    ∃ t : List Int, generateTraverseOrder (F.fin ratio : F ρ) q N = .ok ((q : Int) :: t) := by
  obtain ⟨s, e, hi, _⟩ := traverseLoop_spec (ρ := ρ) (ratio := ratio) hfit hq (le_refl q)
    ((q : Int).toNat + N.toNat + 3)
    { order := [(q : Int)], low := q - 1, high := q + 1, lowStop := false, highStop := false }
    ⟨⟨[], rfl⟩, by simp, by intro L; simp only [List.mem_singleton]; omega, by simp only; omega, by simp only; omega,
      by
        intro L hL
        rw [List.mem_singleton] at hL
        subst hL
        simpa using fits_self ρ ratio q,
      by simp, by simp⟩
    (by simp only [remaining]; simp; omega)
  obtain ⟨t, ht⟩ := hi.head
  refine ⟨t, ?_⟩
  unfold generateTraverseOrder
  rw [traverseLoop_long _ _ _ (by omega) _ _ rfl, e, Res.bind_ok, ht]
  rfl

/-- A query longer than the series of the dataset indexes past the table of lengths. -/
theorem globalMatch_long {ds : Dataset (F ρ)} {ratio : ℝ} (junk : F ρ) {gs : GlobalSpace (F ρ)}
    {q : List ℝ} (hq2 : 2 ≤ q.length) (hqL : gs.locals.length ≤ q.length)
    (hfit : ∀ l ≤ q.length, RatioOk ρ ratio l)
    {query : Series (F ρ)} (hq : SeriesOk query q) :
    ∃ why, gs.getBestMatch junk (F.fin ratio) ds query = .ub why := by
  have hqlen : query.length = (q.length : Int) := by
    unfold Series.length
    rw [hq.vals]
    simp [len]
  obtain ⟨t, ht⟩ := traverse_long (N := len gs.locals - 1) hfit hq2 (by simp only [len]; omega)
  have hub : ∃ why, vget gs.locals (q.length : Int) = .ub why := by
    unfold vget
    rw [if_pos (by omega)]
    have : gs.locals[(q.length : Int).toNat]? = none := by
      rw [List.getElem?_eq_none_iff]
      omega
    rw [this]
    exact ⟨_, rfl⟩
  obtain ⟨why, hub⟩ := hub
  refine ⟨why, ?_⟩
  unfold GlobalSpace.getBestMatch
  rw [if_neg (by rw [hqlen]; omega)]
  simp only
  rw [hqlen, ht, Res.bind_ok]
  unfold searchLoop searchStep
  simp only
  rw [hub]
  rfl

/-- The groups represent the series of the dataset: every representative has the values of a member. -/
def RepMember (L : Nat) (R : List (List ℝ)) (MM : Int → List (List Coord)) (AA : Int → List (List ℝ)) : Prop :=
  ∀ l : Int, 2 ≤ l → l ≤ L → ∀ (k : Nat) (hM : k < (MM l).length) (hA : k < (AA l).length),
    ∃ r ∈ (MM l)[k], (AA l)[k] = subVals R l r

theorem grouped_searchOk {env : Env (F ρ)} {ratio : ℝ} (hratio : env.ratio = F.fin ratio) {s s' : GSet (F ρ)}
    {L : Nat} {R : List (List ℝ)} (hR : s.ds.Holds L (R.map fins)) (hne : R ≠ [])
    (hfit : ∀ l ≤ L, RatioOk ρ ratio l) {name : String} {th : F ρ} {n : Int}
    (h : s.groupAllLengths env name th = (.ok n, s')) :
    s'.ds = s.ds ∧ ∃ gs MM AA, s'.groups = some gs ∧ SearchOk s.ds L gs.locals MM AA ∧ RepMember L R MM AA := by
  obtain ⟨a1, a2, gs, dn, a3, a4, a5, a6⟩ := groupAllLengths_ok h
  have key : ∀ l : Int, ∃ M A, 2 ≤ l → l ≤ L → ∃ ls, vget gs.locals l = .ok (some ls) ∧ LocalOk s.ds l ls M A ∧
      ∀ (k : Nat) (hM : k < M.length) (hA : k < A.length), ∃ r ∈ M[k], A[k] = subVals R l r := by
    intro l
    by_cases hl : 2 ≤ l ∧ l ≤ L
    · obtain ⟨ls, b1, b2⟩ := a6.at_ l hl.1 (by rw [hR.itemLength]; exact hl.2)
      obtain ⟨dom, W, hf, hd⟩ := named_faithful (ρ := ρ) dn hl.1 (hfit l.toNat (by omega))
      obtain ⟨M, A, hi, hall⟩ := grouped_real hratio hR h ⟨gs, a3, b2⟩ a5 hf
        (fun a b ha hb => ⟨(hd a b ha hb).1, (hd a b ha hb).2.1⟩)
      refine ⟨M, A, fun _ _ => ⟨ls, b2, ⟨hi.space, hi.cents, ?_, ?_, ?_⟩, hi.repVals⟩⟩
      · intro a ha
        obtain ⟨k, hk, rfl⟩ := List.getElem_of_mem ha
        obtain ⟨_, _, _, _, e, _⟩ := hi.group (by omega) hR (k := k) (by rw [hi.cents.1]; exact hk)
        exact e
      · intro m hm
        obtain ⟨k, hk, rfl⟩ := List.getElem_of_mem hm
        obtain ⟨r, e, _⟩ := hi.rep k (by rw [hi.space.card]; exact hk) hk
        intro e'
        rw [e'] at e
        simp at e
      · have : ((0 : Int), (0 : Int)) ∈ M.flatten := by
          rw [hall]
          refine ⟨⟨le_refl _, ?_⟩, le_refl _, ?_⟩
          · rw [HoldsReal.count hR]
            have := List.length_pos_iff.mpr hne
            simp only
            omega
          · rw [hR.itemLength]
            simp only
            omega
        rcases M with _ | ⟨m, M⟩
        · simp at this
        · simp
    · exact ⟨[], [], fun h1 h2 => absurd ⟨h1, h2⟩ hl⟩
  choose MM AA hkey using key
  refine ⟨a1, gs, MM, AA, a3, ⟨by rw [a6.size, hR.itemLength], ?_, ?_⟩, ?_⟩
  · intro l h1 h2
    obtain ⟨ls, c1, c2, _⟩ := hkey l h1 h2
    exact ⟨ls, c1, c2⟩
  · intro l h1 h2 h3
    exact a6.short l h1 h2 (by rw [hR.itemLength]; exact h3)
  · intro l h1 h2
    obtain ⟨ls, _, _, c3⟩ := hkey l h1 h2
    exact c3

end Onex
