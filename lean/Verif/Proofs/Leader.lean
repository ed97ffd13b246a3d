import Verif.Spec.Leader
import Verif.Proofs.GroupReal

/-!
# Grouping is leader clustering
-/

namespace Onex
open DataT Spec

/-! ## Leader clustering has one result -/

theorem Spec.Leader.nonempty {β : Type} {D : β → β → ℝ} {h : ℝ} {cs : List β} {G : List (List β)} (hG : Leader D h cs G) :
    ∀ g ∈ G, g ≠ [] := by
  induction hG with
  | nil => simp
  | found hG far ih =>
    intro g hg
    rcases List.mem_append.mp hg with hg | hg
    · exact ih g hg
    · rw [List.mem_singleton.mp hg]
      simp
  | join hG k hk a ha near least ih =>
    intro g hg
    rcases List.mem_or_eq_of_mem_set hg with hg | rfl
    · exact ih g hg
    · simp

theorem Spec.Leader.unique {β : Type} {D : β → β → ℝ} {h : ℝ} {cs : List β} {G G' : List (List β)} (hG : Leader D h cs G)
    (hG' : Leader D h cs G') : G = G' := by
  induction hG generalizing G' with
  | nil =>
    generalize e : ([] : List β) = l at hG'
    cases hG' with
    | nil => rfl
    | found _ _ => simp at e
    | join _ _ _ _ _ _ _ => simp at e
  | @found cs G c hG far ih =>
    generalize e : cs ++ [c] = l at hG'
    cases hG' with
    | nil => simp at e
    | found hG2 far2 =>
      obtain ⟨rfl, e2⟩ := List.append_inj' e rfl
      simp only [List.cons.injEq, and_true] at e2
      subst e2
      rw [ih hG2]
    | join hG2 k hk a ha near least =>
      obtain ⟨rfl, e2⟩ := List.append_inj' e rfl
      simp only [List.cons.injEq, and_true] at e2
      subst e2
      obtain rfl := ih hG2
      exact absurd (far _ (List.getElem_mem hk) a ha) (not_lt.mpr near)
  | @join cs G c hG k hk a ha near least ih =>
    generalize e : cs ++ [c] = l at hG'
    cases hG' with
    | nil => simp at e
    | found hG2 far2 =>
      obtain ⟨rfl, e2⟩ := List.append_inj' e rfl
      simp only [List.cons.injEq, and_true] at e2
      subst e2
      obtain rfl := ih hG2
      exact absurd (far2 _ (List.getElem_mem hk) a ha) (not_lt.mpr near)
    | join hG2 k' hk' a' ha' near' least' =>
      obtain ⟨rfl, e2⟩ := List.append_inj' e rfl
      simp only [List.cons.injEq, and_true] at e2
      subst e2
      obtain rfl := ih hG2
      have h1 := least k' hk' a' ha'
      have h2 := least' k hk a ha
      have : k = k' := by
        rcases lt_trichotomy k k' with hlt | he | hgt
        · exact absurd (h2.2 hlt) (not_lt.mpr h1.1)
        · exact he
        · exact absurd (h1.2 hgt) (not_lt.mpr h2.1)
      subst this
      rfl

/-! ## The order of the double loop -/

theorem subOrder_succ (cnt b : ℕ) : subOrder cnt (b + 1) = subOrder cnt b ++ (List.range cnt).map fun (i : ℕ) => ((i : Int), (b : Int)) := by
  simp [subOrder, List.range_succ, List.flatMap_append]

theorem mem_subOrder {cnt sub : ℕ} {c : Coord} : c ∈ subOrder cnt sub ↔ (0 ≤ c.1 ∧ c.1 < cnt) ∧ 0 ≤ c.2 ∧ c.2 < sub := by
  simp only [subOrder, List.mem_flatMap, List.mem_range, List.mem_map]
  constructor
  · rintro ⟨b, hb, i, hi, rfl⟩
    simp only
    omega
  · rintro ⟨⟨h1, h2⟩, h3, h4⟩
    exact ⟨c.2.toNat, by omega, c.1.toNat, by omega, Prod.ext (by simp only; omega) (by simp only; omega)⟩

/-- Rule for the double loop that keeps the order of the sub-series. -/
theorem generateGroups_order {α : Type} [DataT α] {ds : Dataset α} {l : Int} {cnt : ℕ} (hcnt : ds.itemCount = cnt)
    {d : Dist α} {th : α} {doLog : Bool} {ls : LocalSpace α} (hsub : ls.subCount = ds.itemLength - l + 1)
    (hlog : ∀ _ : 0 < ds.itemCount ∧ 0 < ls.subCount, logProgress doLog (ls.subCount * ds.itemCount) = .ok ())
    (I : LocalSpace α → List Coord → Prop) (h0 : I ls [])
    (step : ∀ ls cs c, I ls cs → IsSub ds.itemCount ds.itemLength l c → c ∉ cs →
      (placeOne ds d th c.1 c.2 ls).Ensures (fun ls' => I ls' (cs ++ [c]))) :
    (ls.generateGroups ds d th doLog).Ensures (fun ls' => I ls' (subOrder cnt ls.subCount.toNat)) := by
  unfold LocalSpace.generateGroups
  simp only
  by_cases hneg : ls.subCount ≤ 0
  · rw [forInt_of_le hneg]
    refine ⟨ls, rfl, ?_⟩
    rw [show ls.subCount.toNat = 0 by omega]
    exact h0
  refine forInt_ensures (lo := 0) (hi := ls.subCount) (s := ls) (fun start ls' => I ls' (subOrder cnt start.toNat)) (by omega) h0 ?_
  intro start s hst1 hst2 hI
  obtain ⟨b, rfl⟩ := Int.eq_ofNat_of_zero_le hst1
  have hin := forInt_ensures (lo := 0) (hi := ds.itemCount) (s := s)
    (body := fun idx ls' => do
      logProgress doLog (ls.subCount * ds.itemCount)
      placeOne ds d th idx b ls')
    (fun idx ls' => I ls' (subOrder cnt b ++ (List.range idx.toNat).map fun (i : ℕ) => ((i : Int), (b : Int))))
    (by omega) (by simpa using hI) (by
      intro idx s hi1 hi2 hI
      rw [hlog ⟨by omega, by omega⟩, Res.bind_ok]
      obtain ⟨i, rfl⟩ := Int.eq_ofNat_of_zero_le hi1
      refine (step s _ ((i : Int), (b : Int)) hI ⟨⟨hi1, hi2⟩, hst1, by simp only; omega⟩ ?_).mono ?_
      · rw [List.mem_append, mem_subOrder]
        simp only [Int.toNat_natCast, List.mem_map, List.mem_range, Prod.mk.injEq, Nat.cast_inj, and_true, exists_eq_right]
        omega
      · intro s' hI'
        rw [show ((i : Int) + 1).toNat = i + 1 by omega, List.range_succ, List.map_append, ← List.append_assoc]
        simpa using hI')
  refine hin.mono ?_
  intro s' hI'
  rw [show ((b : Int) + 1).toNat = b + 1 by omega, subOrder_succ]
  rw [hcnt] at hI'
  simpa using hI'

/-! ## One step -/

/-- The values of the leaders. -/
def leads {β : Type} (R : List (List β)) (l : Int) (M : List (List Coord)) : List (List β) :=
  M.map fun g => subVals R l (g.getLastD (0, 0))

variable {ρ : Rounding}

structure LeadInv (ds : Dataset (F ρ)) (l : Int) (R : List (List ℝ)) (D : List ℝ → List ℝ → ℝ) (h : ℝ)
    (ls : LocalSpace (F ρ)) (cs : List Coord) (M : List (List Coord)) : Prop where
  space : SpaceInv ds l ls M
  rep : RepInv ds l ls.groups M
  cents : CentsOk ds ls.groups (leads R l M)
  leader : Leader (fun c c' => D (subVals R l c) (subVals R l c')) h cs M
  seen : ∀ c, c ∈ M.flatten ↔ c ∈ cs

theorem placeOne_lead {ds : Dataset (F ρ)} {L : Nat} {R : List (List ℝ)} (hds : HoldsReal ds L R) {l : Int}
    (hl : 1 ≤ l) {d : Dist (F ρ)} {dom W} (hd : Honest d dom W) {D : List ℝ → List ℝ → ℝ}
    (hD : ∀ a b : List ℝ, a.length = l.toNat → b.length = l.toNat → dom a b ∧ W a b = F.fin (D a b))
    {th : F ρ} {h : ℝ} (hth : div th (ofInt 2) = F.fin h) {ls : LocalSpace (F ρ)} {cs M} (hi : LeadInv ds l R D h ls cs M)
    {c : Coord} (hc : IsSub ds.itemCount ds.itemLength l c) (hnew : c ∉ cs) :
    (placeOne ds d th c.1 c.2 ls).Ensures fun ls' => ∃ M', LeadInv ds l R D h ls' (cs ++ [c]) M' := by
  obtain ⟨hres, hlen⟩ := resolve_sub hds hl hc
  have hnewM : c ∉ M.flatten := fun h => hnew ((hi.seen c).mp h)
  have hne := hi.leader.nonempty
  have hlast : ∀ g ∈ M, g.getLast? = some (g.getLastD (0, 0)) := by
    intro g hg
    rw [List.getLastD_eq_getLast?, List.getLast?_eq_getLast_of_ne_nil (hne g hg), Option.getD_some]
  have hlead : ∀ g ∈ M, (subVals R l (g.getLastD (0, 0))).length = l.toNat := by
    intro g hg
    obtain ⟨k, hk, rfl⟩ := List.getElem_of_mem hg
    refine (resolve_sub hds hl ((hi.space.inv k (by rw [hi.space.card]; exact hk) hk).subs _ ?_)).2
    exact List.mem_of_getLast? (hlast _ hg)
  have hA : ∀ a ∈ leads R l M, a.length = l.toNat := by
    intro a ha
    obtain ⟨g, hg, rfl⟩ := List.mem_map.mp ha
    exact hlead g hg
  obtain ⟨s, hs, hs1, _, hs3⟩ := nearest_honest hd (fun a ha => (hD a _ (hA a ha) hlen).1) hi.cents
    (seriesOk_mk (ρ := ρ) (subVals R l c)) F.pinf
  have hWg : ∀ (j : ℕ) (hj : j < M.length), W (subVals R l (M[j].getLastD (0, 0))) (subVals R l c) =
      F.fin (D (subVals R l (M[j].getLastD (0, 0))) (subVals R l c)) :=
    fun j hj => (hD _ _ (hlead _ (List.getElem_mem hj)) hlen).2
  have hlen0 : s.groups.length = M.length := by rw [hs1.1]; simp [leads]
  -- what the scan found
  have hfirst : (M = [] ∧ s.best = F.pinf) ∨ ∃ (k : ℕ) (hk : k < M.length), s.bestIdx = some (k : Int) ∧
      s.best = F.fin (D (subVals R l (M[k].getLastD (0, 0))) (subVals R l c)) ∧
      ∀ (j : ℕ) (hj : j < M.length),
        D (subVals R l (M[k].getLastD (0, 0))) (subVals R l c) ≤ D (subVals R l (M[j].getLastD (0, 0))) (subVals R l c) ∧
        (j < k → D (subVals R l (M[k].getLastD (0, 0))) (subVals R l c) < D (subVals R l (M[j].getLastD (0, 0))) (subVals R l c)) := by
    rcases hs3 with ⟨e, hno⟩ | ⟨k, hk, e, _, hall⟩
    · left
      refine ⟨?_, congrArg Prod.snd e⟩
      by_contra hM
      have h0 : 0 < M.length := List.length_pos_iff.mpr hM
      have := hno (W (subVals R l (M[0].getLastD (0, 0))) (subVals R l c)) (by
        simp only [leads, List.map_map, List.mem_map]
        exact ⟨M[0], List.getElem_mem h0, rfl⟩)
      rw [hWg 0 h0, lt_iff] at this
      exact this trivial
    · right
      have hk' : k < M.length := by simpa [leads] using hk
      refine ⟨k, hk', congrArg Prod.fst e, ?_, ?_⟩
      · rw [← hWg k hk']
        have := congrArg Prod.snd e
        simpa [leads] using this
      · intro j hj
        have := hall j (by simpa [leads] using hj)
        simp only [leads, List.map_map, List.getElem_map, Function.comp_apply] at this
        rw [hWg j hj, hWg k hk', lt_iff, lt_iff] at this
        exact ⟨not_lt.mp this.1, this.2⟩
  by_cases hb : (gt s.best (div th (ofInt 2)) || len s.groups == 0) = true
  · obtain ⟨ls', g', e1, e2, e3, e4, e5⟩ := placeOne_new hl hi.space hi.rep hc hnewM hres hs hb
    refine ⟨ls', e1, M ++ [[c]], ⟨e2, e3, ?_, ?_, ?_⟩⟩
    · rw [e4]
      have hl' : leads R l (M ++ [[c]]) = leads R l M ++ [subVals R l c] := by simp [leads]
      rw [hl']
      refine ⟨by simp [hs1.1], ?_⟩
      intro k h1 h2
      simp only [List.length_append, List.length_singleton] at h1 h2
      by_cases hk : k < (leads R l M).length
      · have hk' : k < s.groups.length := by rw [hs1.1]; exact hk
        simp only [List.getElem_append_left hk, List.getElem_append_left hk']
        exact hs1.2 k hk' hk
      · have : k = (leads R l M).length := by omega
        subst this
        have ea : (leads R l M ++ [subVals R l c])[(leads R l M).length]'(by simp) = subVals R l c := by simp
        have eg : (s.groups ++ [g'])[(leads R l M).length]'(by simp [hs1.1]) = g' := by
          rw [List.getElem_append_right (by rw [hs1.1])]
          simp [hs1.1]
        rw [ea, eg]
        exact centOk_view hds hl hc e5
    · refine .found hi.leader ?_
      intro g hg a ha
      rw [hlast g hg, Option.mem_some_iff] at ha
      subst ha
      obtain ⟨j, hj, rfl⟩ := List.getElem_of_mem hg
      rcases hfirst with ⟨hM, _⟩ | ⟨k, hk, _, hbest, hall⟩
      · subst hM
        simp at hj
      · have hgt : lt (div th (ofInt 2)) s.best = true := by
          have hne : ¬ (len s.groups == 0) = true := by
            simp only [beq_iff_eq, len]
            omega
          simp only [Bool.or_eq_true] at hb
          exact hb.resolve_right hne
        rw [hth, hbest, lt_iff] at hgt
        exact lt_of_lt_of_le hgt (hall j hj).1
    · intro c'
      rw [List.flatten_append, List.mem_append, List.mem_append, hi.seen]
      simp
  · have hne' : s.groups.length ≠ 0 := by
      intro h
      apply hb
      simp [len, h]
    rcases hfirst with ⟨hM, _⟩ | ⟨k, hk, hidx, hbest, hall⟩
    · rw [hlen0, hM] at hne'
      exact absurd rfl hne'
    have hks : k < s.groups.length := by omega
    obtain ⟨ls', g', e1, e2, e3, e4, e5⟩ := placeOne_old hl hi.space hi.rep hc hnewM hres hs hb hk hidx
    have hlk := hlast _ (List.getElem_mem hk)
    have hleads : leads R l (M.set k (c :: M[k])) = leads R l M := by
      unfold leads
      rw [List.map_set]
      have : (c :: M[k]).getLastD (0, 0) = M[k].getLastD (0, 0) := by
        cases hm : M[k] with
        | nil => exact absurd hm (hne _ (List.getElem_mem hk))
        | cons x t => simp [List.getLastD_eq_getLast?]
      rw [this]
      refine List.ext_getElem (by simp) ?_
      intro j h1 h2
      by_cases e : k = j
      · subst e
        simp
      · rw [List.getElem_set_ne e]
    refine ⟨ls', e1, M.set k (c :: M[k]), ⟨e2, e3, ?_, ?_, ?_⟩⟩
    · rw [e4, hleads]
      have hkl : k < (leads R l M).length := by simpa [leads] using hk
      exact hs1.set k hkl ((hs1.2 k hks hkl).of_centroid (e5 hks))
    · refine .join hi.leader k hk (M[k].getLastD (0, 0)) (by rw [hlk]; rfl) ?_ ?_
      · simp only [Bool.or_eq_true, not_or] at hb
        have := hb.1
        rw [hbest, hth] at this
        simp only [gt] at this
        rw [lt_iff] at this
        exact not_lt.mp this
      · intro j hj b hb'
        rw [hlast _ (List.getElem_mem hj), Option.mem_some_iff] at hb'
        subst hb'
        exact hall j hj
    · intro c'
      rw [(flatten_set_perm M c k hk).mem_iff, List.mem_cons, hi.seen, List.mem_append, List.mem_singleton]
      exact or_comm

/-- Grouping the sub-series of one length. -/
theorem generate_lead {ds : Dataset (F ρ)} {L : Nat} {R : List (List ℝ)} (hds : HoldsReal ds L R) {l : Int}
    (hl : 1 ≤ l) {d : Dist (F ρ)} {dom W} (hd : Honest d dom W) {D : List ℝ → List ℝ → ℝ}
    (hD : ∀ a b : List ℝ, a.length = l.toNat → b.length = l.toNat → dom a b ∧ W a b = F.fin (D a b))
    {th : F ρ} {h : ℝ} (hth : div th (ofInt 2) = F.fin h) {ls : LocalSpace (F ρ)} (hls : LocalSpace.new ds l = .ok ls) :
    (ls.generateGroups ds d th false).Ensures fun ls' => ∃ M, LeadInv ds l R D h ls' (subOrder R.length (ds.itemLength - l + 1).toNat) M := by
  obtain ⟨h1, h2, h3⟩ := spaceInv_new hls
  rw [← h1.subCount]
  refine generateGroups_order (HoldsReal.count hds) h1.subCount (fun _ => by simp [logProgress])
    (fun ls cs => ∃ M, LeadInv ds l R D h ls cs M)
    ⟨[], ⟨h1, h2, ⟨by rw [h3]; rfl, by intro k h; rw [h3] at h; simp at h⟩, .nil, by simp⟩⟩ ?_
  rintro ls cs c ⟨M, hi⟩ hc hn
  exact placeOne_lead hds hl hd hD hth hi hc hn

end Onex
