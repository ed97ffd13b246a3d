import Verif.Proofs.GroupDoc
import Verif.Proofs.SearchAll

/-!
# Files with one group of length 2, good or bad
-/

namespace Onex
open DataT Spec

set_option linter.unusedSectionVars false

section any
variable {α : Type} [DataT α] {P : α → Prop} {rt rt6 : α → α}

/-- The loop of `loadGroup`. -/
def memberLoop (g : Group α) (mm : List Membership) (cnt : Int) (s : Stream) : Res (LoadState α) :=
  forInt 0 cnt ({ stream := s, index := none, start := none, group := g, mm := mm } : LoadState α)
    fun _ st => do
      let (i, s) := readInt st.stream
      let index := i <|> st.index
      let (j, s) := readInt s
      let start := j <|> st.start
      match index, start with
      | some i, some j => do
        let (g, mm) ← st.group.addMember st.mm i j
        return { stream := s, index := index, start := start, group := g, mm := mm }
      | _, _ => .ub "uninitialised read"

/-- The header of a file for `cnt` series of length 2. -/
def headText (io : NumIO α) (st : α) (cnt : Int) (name : String) : Text :=
  showInt 1 ++ ' ' :: (io.show6 st ++ ' ' :: (showInt cnt ++ ' ' :: (showInt 2 ++ '\n' :: (showInt 2 ++ ' ' ::
    (showInt 3 ++ '\n' :: (name.toList ++ ['\n']))))))

/-- One group of `k` members, which are in `tail`. -/
def oneText (io : NumIO α) (rep : List α) (k : Int) (tail : Text) : Text :=
  showInt 1 ++ '\n' :: (printData io rep ++ '\n' :: (showInt k ++ ' ' :: tail))

/-- The group of a file, before its members are read. -/
def group₀ (rep : List α) : Group α := { (Group.new 0 2 1 : Group α) with centroid := { src := .own rep, cache := none } }

def space₀ (gs : List (Group α)) (mm : List Membership) : LocalSpace α := { length := 2, subCount := 1, groups := gs, memberMap := mm }

/-- Reading the header. -/
theorem head_load {env : Env α} (hio : IOok env.io P rt rt6) {t : GSet α} (hL : t.ds.itemLength = 2) (hcnt : 0 ≤ t.ds.itemCount)
    (hcnt' : t.ds.itemCount ≤ 2147483647) {name : String} {dn : DistName} (hname : getDistance name = .ok dn) {st : α} (hP : P st)
    (tail : Text) :
    ∃ s, At s tail ∧ t.loadGroups env (some (headText env.io st t.ds.itemCount name ++ tail)) =
      match (space₀ [] (List.replicate t.ds.itemCount.toNat Membership.default) : LocalSpace α).loadGroups env.io s with
      | .ok (n, ls, _) => (.ok n, { t with groups := some { locals := [none, none, some ls], distanceName := name }, threshold := some (rt6 st) })
      | .throw e => (.throw e, { t with groups := some { locals := [], distanceName := name }, threshold := some (rt6 st) })
      | .ub w => (.ub w, { t with groups := some { locals := [], distanceName := name }, threshold := some (rt6 st) }) := by
  have h0 := At.start (headText env.io st t.ds.itemCount name ++ tail)
  unfold headText at h0
  simp only [List.append_assoc, List.cons_append, List.nil_append] at h0
  obtain ⟨s1, e1, h1⟩ := readInt_show (by decide) rfl h0
  obtain ⟨s2, e2, h2⟩ := readData_show (hio.word6 st hP) (hio.read6 st hP) h1
  obtain ⟨s3, e3, h3⟩ := readInt_show (by simp only [inIntRange, decide_eq_true_eq]; omega) rfl h2
  obtain ⟨s4, e4, h4⟩ := readInt_show (by decide) rfl h3
  obtain ⟨s5, e5, h5⟩ := readInt_show (by decide) rfl h4
  obtain ⟨s6, e6, h6⟩ := readInt_show (by decide) rfl h5
  obtain ⟨w1, w2⟩ := getDistance_word hname
  obtain ⟨s7, e7, h7⟩ := readName_word w1 w2 rfl h6
  refine ⟨s7, h7, ?_⟩
  have hnew : LocalSpace.new t.ds 2 = .ok (space₀ [] (List.replicate t.ds.itemCount.toNat Membership.default)) := by
    unfold LocalSpace.new space₀
    simp only [hL]
    rw [if_neg (by omega)]
    simp
  have hnm : String.ofList name.toList = name := String.ofList_toList
  have u1 : toUnsigned 2 = 2 := rfl
  have u2 : toUnsigned 3 = 3 := rfl
  have hrep : List.replicate (t.ds.itemLength + 1).toNat (none : Option (LocalSpace α)) = [none, none, none] := by
    rw [hL]
    rfl
  have hset : ∀ ls : LocalSpace α, vset [none, none, none] 2 (some ls) = .ok [none, none, some ls] := fun _ => rfl
  unfold GSet.loadGroups headText
  simp only [List.append_assoc, List.cons_append, List.nil_append, e1, e2, e3, e4]
  rw [if_neg (by simp), if_neg (by simp), if_neg (by simp [hL])]
  simp only [GSet.reset, GlobalSpace.loadGroups, e5, e6, e7, hnm, hname]
  rw [if_neg (by omega), u1, u2, hrep, forInt_succ (by decide), hnew, Res.bind_ok]
  rcases (space₀ [] (List.replicate t.ds.itemCount.toNat Membership.default) : LocalSpace α).loadGroups env.io s7 with ⟨n, ls, s⟩ | e | w
  · simp only [Res.bind_ok, hset]
    rw [Res.pure_eq, Res.bind_ok, forInt_of_le (by decide)]
    simp
  · rfl
  · rfl

/-- Reading one group. -/
theorem one_load {env : Env α} (hio : IOok env.io P rt rt6) {t : GSet α} (hL : t.ds.itemLength = 2) (hcnt : 0 ≤ t.ds.itemCount)
    (hcnt' : t.ds.itemCount ≤ 2147483647) {name : String} {dn : DistName} (hname : getDistance name = .ok dn) {st : α} (hP : P st)
    {rep : List α} (hrep : rep.length = 2) (hrP : ∀ v ∈ rep, P v) {k : Int} (hk : inIntRange k = true) (tail : Text) :
    ∃ s, At s tail ∧ t.loadGroups env (some (headText env.io st t.ds.itemCount name ++ oneText env.io rep k tail)) =
      match memberLoop (group₀ (rep.map rt)) (List.replicate t.ds.itemCount.toNat Membership.default) k s with
      | .ok r => (.ok 1, { t with groups := some { locals := [none, none, some (space₀ [r.group] r.mm)], distanceName := name },
                                  threshold := some (rt6 st) })
      | .throw e => (.throw e, { t with groups := some { locals := [], distanceName := name }, threshold := some (rt6 st) })
      | .ub w => (.ub w, { t with groups := some { locals := [], distanceName := name }, threshold := some (rt6 st) }) := by
  obtain ⟨s0, h0, e0⟩ := head_load hio hL hcnt hcnt' hname hP (oneText env.io rep k tail)
  rw [e0]
  unfold oneText at h0
  obtain ⟨s1, e1, h1⟩ := readInt_show (by decide) rfl h0
  obtain ⟨s2, e2, h2⟩ := readCentroid_print hio rep s1 _ hrP h1
  obtain ⟨s3, e3, h3⟩ := readInt_show hk rfl (h2.skip rfl)
  refine ⟨s3, h3, ?_⟩
  have u1 : toUnsigned 1 = 1 := rfl
  have hml : (Group.new 0 2 1 : Group α).memberLength.toNat = rep.length := hrep.symm
  have hlg : (Group.new 0 2 1 : Group α).loadGroup env.io (List.replicate t.ds.itemCount.toNat Membership.default) s1 =
      (memberLoop (group₀ (rep.map rt)) (List.replicate t.ds.itemCount.toNat Membership.default) k s3) >>= fun st =>
        pure (st.group, st.mm, st.stream) := by
    unfold Group.loadGroup
    simp only [hml, e2, e3]
    rfl
  unfold LocalSpace.loadGroups
  simp only [e1]
  rw [u1, forInt_succ (by decide)]
  simp only [space₀, hlg]
  rcases memberLoop (group₀ (rep.map rt)) (List.replicate t.ds.itemCount.toNat Membership.default) k s3 with r | e | w
  · simp only [Res.bind_ok, Res.pure_eq]
    rw [forInt_of_le (by decide)]
    rfl
  · rfl
  · rfl

/-- A member chain that leads back to its start. -/
structure Looped (ls : LocalSpace α) (g : Group α) (e : Membership) : Prop where
  groups : ls.groups = [g]
  last : g.last = (0, 0)
  subCount : g.subCount = 1
  memberLength : g.memberLength = 2
  slot : vget ls.memberMap 0 = .ok e
  prev : e.prev = (0, 0)

theorem save_diverges {ls : LocalSpace α} {g : Group α} {e : Membership} (h : Looped ls g e) :
    ∀ fuel, saveMembersLoop g ls.memberMap fuel (0, 0) = .ub "diverges"
  | 0 => by simp [saveMembersLoop]
  | fuel + 1 => by
    unfold saveMembersLoop
    rw [if_neg (by simp)]
    simp only [h.subCount]
    rw [show (0 : Int) * 1 + 0 = 0 from rfl, h.slot, Res.bind_ok, h.prev, save_diverges h fuel]
    rfl

end any

variable {ρ : Rounding}

theorem match_diverges {d : Dist (F ρ)} {dom W} (hd : Faithful d dom W) {ds : Dataset (F ρ)} {a q : List ℝ}
    {v : View} (hv : ds.getTimeSeries 0 0 2 = .ok v) (hres : ds.resolve v = .ok (fins a)) (hdom : dom q a)
    {ls : LocalSpace (F ρ)} {g : Group (F ρ)} {e : Membership} (h : Looped ls g e) :
    ∀ fuel best bestM query, SeriesOk query q →
      g.bestMatchLoop ds ls.memberMap d fuel (0, 0) best bestM query = .ub "diverges"
  | 0, _, _, _, _ => by simp [Group.bestMatchLoop]
  | fuel + 1, best, bestM, query, hq => by
    obtain ⟨x, sa, sb, e1, e2, _⟩ := hd.run q a query (Series.mk' (fins a)) best hdom hq (seriesOk_mk a)
    unfold Group.bestMatchLoop
    rw [if_neg (by simp)]
    simp only [h.memberLength, h.subCount]
    rw [show (0 : Int) + 2 = 2 from rfl, hv, Res.bind_ok, hres, Res.bind_ok, e1, Res.bind_ok,
      show (0 : Int) * 1 + 0 = 0 from rfl, h.slot, Res.bind_ok, h.prev]
    exact match_diverges hd hv hres hdom h fuel _ _ sa e2

theorem order_two {α : Type} [DataT α] (ratio : α) : generateTraverseOrder ratio 2 2 = .ok [2] := by
  simp [generateTraverseOrder, traverseLoop, traverseStep]

/-- A search when there is one group of length 2 and no other. -/
theorem one_search {ds : Dataset (F ρ)} {ratio : ℝ} (hr : RatioOk ρ ratio 2) (junk : F ρ) {gs : GlobalSpace (F ρ)}
    {ls : LocalSpace (F ρ)} (hgs : gs.locals = [none, none, some ls]) {g : Group (F ρ)} (hg : ls.groups = [g]) {a q : List ℝ}
    (ha : CentOk ds g a) (ha2 : a.length = 2) {query : Series (F ρ)} (hq : SeriesOk query q) (hq2 : q.length = 2) :
    ∃ x query' gs', SeriesOk query' q ∧ gs.getBestMatch junk (F.fin ratio) ds query =
      ((recache g x).getBestMatch ds ls.memberMap query' (cascadeDistance junk (F.fin ratio)) >>= fun c => .ok (c, gs')) := by
  have hqlen : query.length = 2 := by
    unfold Series.length
    rw [hq.vals]
    simp [len, hq2]
  have hdom : ∀ b ∈ [a], wrdDom ρ ratio b q := by
    intro b hb
    rw [List.mem_singleton] at hb
    subst hb
    exact ⟨by rw [ha2, hq2]; exact hr, by omega, by omega⟩
  have hcents : CentsOk ds ls.groups [a] := by
    refine ⟨by simp [hg], ?_⟩
    intro k h1 h2
    have : k = 0 := by simpa using h2
    subst this
    simpa [hg] using ha
  obtain ⟨v, gs1, query1, e1, e2, e3, _, e4, _⟩ := nearestStep_spec (faithful_cascade junk ratio) hdom
    { groups := ls.groups, query := query, best := F.pinf, bestIdx := none } hcents hq 0 (by simp)
  have hv : lt v (F.pinf : F ρ) = true := by
    rw [e4 rfl]
    rcases wrd_val (ρ := ρ) ratio a q (by omega) with h | ⟨x, _, h⟩
    · rw [wrd_finite_iff ratio a q (by omega) (by omega)] at h
      exact absurd ⟨by omega, by omega⟩ h
    · simp only [List.getElem_cons_zero, h]
      rw [lt_iff]
      trivial
  rw [if_pos hv] at e1
  have hnear : nearest ds (cascadeDistance junk (F.fin ratio)) ls.groups query F.pinf =
      .ok { groups := gs1, query := query1, best := v, bestIdx := some 0 } := by
    unfold nearest
    rw [show len ls.groups = 1 from by simp [hg, len], forInt_succ (by decide)]
    have := e1
    simp only [Nat.cast_zero] at this
    rw [this, Res.bind_ok, forInt_of_le (by decide)]
  obtain ⟨hs1, hs2⟩ := (nearest_shape _ _ _ _ _ _ hnear).1
  simp only [hg] at hs1 hs2
  obtain ⟨g1, rfl⟩ := List.length_eq_one_iff.mp hs1
  obtain ⟨x, hx⟩ := hs2 0 (by simp) (by simp)
  simp only [List.getElem_cons_zero] at hx
  refine ⟨x, query1, { gs with locals := [none, none, some { ls with groups := [g1] }] }, e3, ?_⟩
  have hget : ∀ ls : LocalSpace (F ρ), vget [none, none, some ls] 2 = .ok (some ls) := fun _ => rfl
  have hset : ∀ ls ls' : LocalSpace (F ρ), vset [none, none, some ls] 2 (some ls') = .ok [none, none, some ls'] := fun _ _ => rfl
  unfold GlobalSpace.getBestMatch
  rw [if_neg (by omega), hqlen, hgs]
  simp only
  rw [show len [none, none, some ls] - 1 = 2 from rfl, order_two, Res.bind_ok]
  have hinf : (DataT.inf : F ρ) = F.pinf := rfl
  simp only [searchLoop, searchStep, hget, Res.bind_ok, LocalSpace.getBestGroup, hinf, hnear, Res.pure_eq, hset, hv, if_true,
    Option.map_some]
  rw [show vget [g1] 0 = .ok g1 from rfl, Res.bind_ok, hx]

end Onex
