import Verif.Proofs.Leader
import Verif.Props.Grouping

/-!
# C59: grouping is leader clustering
-/

namespace Onex
open DataT Spec

theorem equal_named {ratio : ℝ} {name : String} {D : List ℝ → List ℝ → ℝ} (hD : EqualDist ratio name D) :
    ∃ W, NamedDist ratio name W ∧ ∀ a b : List ℝ, W a b ≠ F.pinf → W a b = F.fin (D a b) := by
  cases hD with
  | euclidean => exact ⟨_, .euclidean, fun _ _ _ => rfl⟩
  | dtw =>
    refine ⟨_, .dtw, fun a b h => ?_⟩
    unfold warped at h ⊢
    simp only at h ⊢
    split at h
    · next hne =>
      rw [if_pos hne]
      rfl
    · exact absurd rfl h

section real
variable (env : Env (F Rounding.exact)) (ratio : ℝ) (hratio : env.ratio = F.fin ratio)
  (s s' : GSet (F Rounding.exact)) (L : Nat) (R : List (List ℝ)) (hR : s.ds.Holds L (R.map fins))
  (h0 : 0 ≤ ratio) (hL : (L : ℝ) * ratio < 2147483648)

include hratio hR h0 hL

/-- C59: for every length, the groups are those of leader clustering of the sub-series, taken by starting point and then by
series, with the distance of the grouping and half the threshold for radius. The groups, the members of each group and the order
of both are as specified, and each representative is the leader of its group. -/
theorem C59_leader {name : String} {D} (hD : EqualDist ratio name D) (st : ℝ) (n : Int)
    (h : s.groupAllLengths env name (F.fin st) = (.ok n, s')) (l : Int) (l2 : 2 ≤ l) (lL : l ≤ L) :
    ∃ ls G, GroupsOf s' l ls ∧
      Leader (fun c c' => D (subVals R l c) (subVals R l c')) (st / 2) (subOrder R.length (L - l + 1).toNat) G ∧
      ∃ hlen : G.length = ls.groups.length, ∀ (k : ℕ) (hk : k < ls.groups.length),
        ls.groups[k].getMembers s.ds ls.memberMap = .ok (G[k].map (subView s.ds l)) ∧
        ∃ c ∈ G[k].getLast?, RepValues s.ds ls.groups[k] (subVals R l c) := by
  obtain ⟨ls, hls⟩ := (C25_partition env name (F.fin st) s s' n (by rw [HoldsReal.count hR]; omega) h).1 l l2
    (by rw [hR.itemLength]; exact lL)
  obtain ⟨W, hW, hWD⟩ := equal_named hD
  obtain ⟨dn, dom, hdn, hf, hd⟩ := named_honest hW l2 (ratioOk_of h0 hL l.toNat (by omega))
  obtain ⟨dn', hdn', _, _, h3⟩ := groupsOf_grouped h hls
  rw [hdn, Res.ok.injEq] at hdn'
  subst hdn'
  obtain ⟨ls0, e1, e2⟩ := Res.bind_eq_ok.mp h3
  rw [hratio] at e2
  obtain ⟨ls', e3, G, hi⟩ := generate_lead hR (by omega) hf
    (fun a b ha hb => ⟨(hd a b ha hb).1, hWD a b (hd a b ha hb).2.1⟩) (half_fin _ st) e1
  rw [e2, Res.ok.injEq] at e3
  subst e3
  refine ⟨ls, G, hls, ?_, hi.space.card.symm, ?_⟩
  · rw [← hR.itemLength]
    exact hi.leader
  · intro k hk
    have hkG : k < G.length := by rw [← hi.space.card]; exact hk
    refine ⟨getMembers_spec (by omega) hi.space.mapLen (hi.space.inv k hk hkG), ?_⟩
    have hne := hi.leader.nonempty _ (List.getElem_mem hkG)
    refine ⟨G[k].getLastD (0, 0), ?_, ?_⟩
    · rw [List.getLastD_eq_getLast?, List.getLast?_eq_getLast_of_ne_nil hne, Option.getD_some]
      rfl
    · obtain ⟨c, c1, c2⟩ := hi.cents.2 k hk (by simpa [leads] using hkG)
      refine ⟨c, c1, ?_⟩
      rw [c2.vals]
      simp [leads, fins]

end real

/-- C59: leader clustering has exactly one result, so the above says completely what the groups are. -/
theorem C59_leader_unique {β : Type} (D : β → β → ℝ) (h : ℝ) (cs : List β) : ∃! G, Leader D h cs G := by
  suffices ∃ G, Leader D h cs G by
    obtain ⟨G, hG⟩ := this
    exact ⟨G, hG, fun G' h' => h'.unique hG⟩
  induction cs using List.reverseRecOn with
  | nil => exact ⟨[], .nil⟩
  | append_singleton cs c ih =>
    obtain ⟨G, hG⟩ := ih
    by_cases hfar : ∀ g ∈ G, ∀ a ∈ g.getLast?, h < D a c
    · exact ⟨_, .found hG hfar⟩
    push Not at hfar
    obtain ⟨g, hg, a, ha, hle⟩ := hfar
    have hlast : ∀ g ∈ G, g.getLast? = some (g.getLastD a) := by
      intro g hg
      rw [List.getLastD_eq_getLast?, List.getLast?_eq_getLast_of_ne_nil (hG.nonempty g hg), Option.getD_some]
    have h0 : 0 < G.length := List.length_pos_of_mem hg
    -- the least distance to a leader, and the first group that has it
    obtain ⟨m, hm, hmin⟩ := Finset.exists_min_image (Finset.range G.length)
      (fun j => D ((G.getD j []).getLastD a) c) ⟨0, Finset.mem_range.mpr h0⟩
    have hm := Finset.mem_range.mp hm
    have hex : ∃ k, ∃ _ : k < G.length, D (G[k].getLastD a) c = D (G[m].getLastD a) c := ⟨m, hm, rfl⟩
    obtain ⟨k, ⟨hk, hkm⟩, hfirst⟩ : ∃ k, (∃ _ : k < G.length, D (G[k].getLastD a) c = D (G[m].getLastD a) c) ∧
        ∀ j < k, ¬ ∃ _ : j < G.length, D (G[j].getLastD a) c = D (G[m].getLastD a) c := by
      classical
      exact ⟨Nat.find hex, Nat.find_spec hex, fun j hj => Nat.find_min hex hj⟩
    have hall : ∀ (j : ℕ) (hj : j < G.length), ∀ b ∈ G[j].getLast?,
        D (G[k].getLastD a) c ≤ D b c ∧ (j < k → D (G[k].getLastD a) c < D b c) := by
      intro j hj b hb
      rw [hlast _ (List.getElem_mem hj), Option.mem_some_iff] at hb
      subst hb
      have hle := hmin j (Finset.mem_range.mpr hj)
      simp only [List.getD_eq_getElem?_getD, List.getElem?_eq_getElem hj, List.getElem?_eq_getElem hm, Option.getD_some] at hle
      rw [← hkm] at hle
      exact ⟨hle, fun hjk => lt_of_le_of_ne hle fun e => hfirst j hjk ⟨hj, by rw [← e, hkm]⟩⟩
    refine ⟨_, .join hG k hk (G[k].getLastD a) (by rw [hlast _ (List.getElem_mem hk)]; rfl) ?_ hall⟩
    obtain ⟨j, hj, rfl⟩ := List.getElem_of_mem hg
    exact le_trans (hall j hj a ha).1 hle

/-- A case: three series, grouped with threshold 4. The second is near the first, the third is not. -/
example (io : NumIO (F Rounding.exact)) (stod : Text → Stod (F Rounding.exact)) :
    let R : List (List ℝ) := [[0, 0], [1, 1], [5, 5]]
    let env : Env (F Rounding.exact) := ⟨F.fin 1, F.nan, io, stod, fun _ => false⟩
    let s : GSet (F Rounding.exact) := ⟨⟨some (R.map fins).flatten, 0, 2, 3, "", false⟩, none, none⟩
    ∃ n s' ls, s.groupAllLengths env "euclidean" (F.fin 4) = (.ok n, s') ∧ GroupsOf s' 2 ls ∧
      ∃ h : ls.groups.length = 2,
        ls.groups[0].getMembers s.ds ls.memberMap = .ok [subView s.ds 2 (1, 0), subView s.ds 2 (0, 0)] ∧
        ls.groups[1].getMembers s.ds ls.memberMap = .ok [subView s.ds 2 (2, 0)] := by
  intro R env s
  have hR : s.ds.Holds 2 (R.map fins) := by
    refine ⟨?_, rfl, rfl, [], by simp [s]⟩
    intro r hr
    simp only [R, List.map_cons, List.map_nil, List.mem_cons, List.not_mem_nil, or_false] at hr
    rcases hr with rfl | rfl | rfl <;> rfl
  have hfit := ratioOk_of (ratio := 1) (L := 2) (by norm_num) (by norm_num)
  obtain ⟨n, s', h⟩ := C36_completes_partial env 1 rfl s 2 R hR hfit "euclidean" (Or.inl rfl) (F.fin 4)
    (Or.inr fun _ => rfl)
  obtain ⟨ls, G, hls, hG, hlen, hk⟩ := C59_leader env 1 rfl s s' 2 R hR (by norm_num) (by norm_num) .euclidean 4 n h 2
    (by norm_num) (by norm_num)
  have r01 : rms [0, 0] [1, 1] = 1 := by simp [rms, Finset.sum_range_succ]
  have r05 : rms [0, 0] [5, 5] = 5 := by
    rw [rms, Real.sqrt_eq_iff_mul_self_eq (by positivity) (by norm_num)]
    norm_num [Finset.sum_range_succ]
  have hG' : Leader (fun c c' => rms (subVals R 2 c) (subVals R 2 c')) (4 / 2) ([] ++ [(0, 0)] ++ [(1, 0)] ++ [(2, 0)])
      (((([] : List (List Coord)) ++ [[(0, 0)]]).set 0 [(1, 0), (0, 0)]) ++ [[(2, 0)]]) := by
    refine .found (.join (cs := [] ++ [(0, 0)]) (G := [] ++ [[(0, 0)]]) (.found .nil (by simp)) 0 (by simp) (0, 0) (by simp) ?_ ?_) ?_
    · simp [subVals, R, r01]
      norm_num
    · intro j hj b hb
      simp only [List.nil_append, List.length_singleton, Nat.lt_one_iff] at hj
      subst hj
      simp only [List.nil_append, List.getElem_cons_zero, List.getLast?_singleton, Option.mem_some_iff] at hb
      subst hb
      simp
    · simp [subVals, R, r05]
      norm_num
  have hGG := hG.unique hG'
  subst hGG
  refine ⟨n, s', ls, h, hls, by rw [← hlen]; rfl, ?_, ?_⟩
  · exact (hk 0 (by rw [← hlen]; simp)).1
  · exact (hk 1 (by rw [← hlen]; simp)).1

end Onex
