import Verif.Proofs.Affine
import Verif.Props.Answer
import Verif.Props.Normalize

/-!
# C61: scale and offset of the data do not matter
-/

namespace Onex
open DataT Spec

theorem searchOk_groups {ds ds' : Dataset XF} {L : Nat} {locals locals' : List (Option (LocalSpace XF))} {MM MM' AA AA'}
    (h : SearchOk ds L locals MM AA) (h' : SearchOk ds' L locals' MM' AA')
    (he : ∀ l : Int, 2 ≤ l → l ≤ L → MM l = MM' l) : locals.map entryGroups = locals'.map entryGroups := by
  have s1 := h.size
  have s2 := h'.size
  simp only [len] at s1 s2
  refine List.ext_getElem (by simp; omega) fun k h1 h2 => ?_
  simp only [List.length_map] at h1 h2
  simp only [List.getElem_map]
  by_cases hk : 2 ≤ k
  · obtain ⟨ls, e, hl⟩ := h.at_ k (by omega) (by omega)
    obtain ⟨ls', e', hl'⟩ := h'.at_ k (by omega) (by omega)
    rw [vget_nat h1, Res.ok.injEq] at e
    rw [vget_nat h2, Res.ok.injEq] at e'
    rw [e, e']
    simp only [entryGroups]
    rw [hl.space.card, hl'.space.card, he k (by omega) (by omega)]
  · have e := h.short k (by omega) (by omega) (by omega)
    have e' := h'.short k (by omega) (by omega) (by omega)
    rw [vget_nat h1, Res.ok.injEq] at e
    rw [vget_nat h2, Res.ok.injEq] at e'
    rw [e, e']

section real
variable (c b : ℝ) (hc : c ≠ 0) (L : Nat) (R : List (List ℝ)) (hne : R ≠ []) (s t s₁ t₁ : GSet XF)
  (hR : s.ds.Holds L (R.map fins)) (hR' : t.ds.Holds L ((R.map fun r => r.map fun x => c * x + b).map fins))
  (env env' : Env XF) (ratio : ℝ) (hf : FitEnv env L ratio) (hf' : FitEnv env' L ratio)
  (name : String) (hname : name = "euclidean" ∨ name = "euclidean_dtw") (st : ℝ) (n n' : Int)
  (h : s.groupAllLengths env name (F.fin st) = (.ok n, s₁))
  (h' : t.groupAllLengths env' name (F.fin (|c| * st)) = (.ok n', t₁))

include hc hne hR hR' hf hf' hname h h'

theorem affine_groups : ∃ gs gt G, s₁.ds = s.ds ∧ t₁.ds = t.ds ∧ s₁.groups = some gs ∧ t₁.groups = some gt ∧
    SearchOk s.ds L gs.locals G (fun l => leads R l (G l)) ∧
    SearchOk t.ds L gt.locals G (fun l => leads (R.map (affine c b)) l (G l)) ∧
    (∀ l : Int, 2 ≤ l → l ≤ L → ∀ g ∈ G l, ∀ x ∈ g, x ∈ subOrder R.length (L - l + 1).toNat) ∧ n' = n := by
  obtain ⟨D, hD⟩ : ∃ D, EqualDist ratio name D := by
    rcases hname with rfl | rfl
    · exact ⟨_, .euclidean⟩
    · exact ⟨_, .dtw⟩
  obtain ⟨a1, gs, G, a2, a3, a4⟩ := lead_searchOk hR hne hf hD h
  obtain ⟨b1, gt, G', b2, b3, b4⟩ := lead_searchOk (R := R.map (affine c b)) hR' (by simpa using hne) hf' hD h'
  have hGG : ∀ l : Int, 2 ≤ l → l ≤ L → G l = G' l := by
    intro l l2 lL
    have hsc := (a4 l l2 lL).scale (abs_pos.mpr hc)
      (D' := fun x y => D (subVals (R.map (affine c b)) l x) (subVals (R.map (affine c b)) l y)) (by
        intro x hx y hy
        have hlen : ∀ x ∈ subOrder R.length (L - l + 1).toNat, (subVals R l x).length = l.toNat := by
          intro x hx
          rw [mem_subOrder] at hx
          refine (resolve_sub hR (by omega) ⟨?_, ?_⟩).2
          · rw [HoldsReal.count hR]
            exact hx.1
          · rw [hR.itemLength]
            omega
        simp only [subVals_affine]
        exact equalDist_affine hD (by rw [hlen x hx, hlen y hy]) (by rw [hlen x hx]; omega))
    have hb := b4 l l2 lL
    rw [List.length_map] at hb
    rw [← mul_div_assoc] at hsc
    exact hsc.unique hb
  have b3' : SearchOk t.ds L gt.locals G (fun l => leads (R.map (affine c b)) l (G l)) := by
    refine ⟨b3.size, fun l l2 lL => ?_, b3.short⟩
    obtain ⟨ls, e1, e2⟩ := b3.at_ l l2 lL
    simp only [← hGG l l2 lL] at e2
    exact ⟨ls, e1, e2⟩
  refine ⟨gs, gt, G, a1, b1, a2, b2, a3, b3', fun l l2 lL => (a4 l l2 lL).mem, ?_⟩
  obtain ⟨_, _, gs', dn, c1, _, _, c2⟩ := groupAllLengths_ok h
  obtain ⟨_, _, gt', dn', d1, _, _, d2⟩ := groupAllLengths_ok h'
  rw [a2, Option.some.injEq] at c1
  rw [b2, Option.some.injEq] at d1
  subst c1 d1
  rw [c2.total, d2.total, searchOk_groups a3 b3' fun _ _ _ => rfl]

/-- C61: if every value `x` of the data is replaced by `c * x + b` with `c ≠ 0`, and the threshold by `|c|` times itself, grouping
gives as many groups, and for every length the same groups with the same members in the same order. -/
theorem C61_same_groups : n' = n ∧ ∀ l : Int, 2 ≤ l → l ≤ L → ∃ ls ls', ∃ G : List (List Coord), GroupsOf s₁ l ls ∧ GroupsOf t₁ l ls' ∧
    ∃ (h₁ : ls.groups.length = G.length) (h₂ : ls'.groups.length = G.length), ∀ (k : ℕ) (hk : k < G.length),
      ls.groups[k].getMembers s.ds ls.memberMap = .ok (G[k].map (subView s.ds l)) ∧
      ls'.groups[k].getMembers t.ds ls'.memberMap = .ok (G[k].map (subView t.ds l)) := by
  obtain ⟨gs, gt, G, _, _, a2, b2, a3, b3, _, hn⟩ := affine_groups c b hc L R hne s t s₁ t₁ hR hR' env env' ratio hf hf' name hname
    st n n' h h'
  refine ⟨hn, fun l l2 lL => ?_⟩
  obtain ⟨ls, e1, e2⟩ := a3.at_ l l2 lL
  obtain ⟨ls', f1, f2⟩ := b3.at_ l l2 lL
  refine ⟨ls, ls', G l, ⟨gs, a2, e1⟩, ⟨gt, b2, f1⟩, e2.space.card, f2.space.card, fun k hk => ?_⟩
  exact ⟨getMembers_spec (by omega) e2.space.mapLen (e2.space.inv k (by rw [e2.space.card]; exact hk) hk),
    getMembers_spec (by omega) f2.space.mapLen (f2.space.inv k (by rw [f2.space.card]; exact hk) hk)⟩

/-- C61: a query whose values are changed in the same way is answered with the same window, at `|c|` times the distance, whatever
matches came before in either set. -/
theorem C61_same_answer (s₂ t₂ : GSet XF) (hs : Matches L s₁ s₂) (ht : Matches L t₁ t₂) (env₂ env₂' : Env XF) (ratio₂ : ℝ)
    (hf₂ : FitEnv env₂ L ratio₂) (hf₂' : FitEnv env₂' L ratio₂) (q : List ℝ) (query query' : Series XF) (hq : SeriesOk query q)
    (hq' : SeriesOk query' (q.map fun x => c * x + b)) (h2 : 2 ≤ q.length) (hL : q.length ≤ L) :
    ∃ (l : Int) (p : Coord) (x : ℝ) (s₃ t₃ : GSet XF),
      s₂.getBestMatch env₂ query = (.ok { ts := subView s.ds l p, dist := F.fin x }, s₃) ∧
      t₂.getBestMatch env₂' query' = (.ok { ts := subView t.ds l p, dist := F.fin (|c| * x) }, t₃) := by
  obtain ⟨gs, gt, G, a1, b1, a2, b2, a3, b3, hG, _⟩ := affine_groups c b hc L R hne s t s₁ t₁ hR hR' env env' ratio hf hf' name
    hname st n n' h h'
  have hRs := hR
  rw [← a1] at hRs a3
  have hRt := hR'
  rw [← b1] at hRt b3
  obtain ⟨e1, gs', e2, e3⟩ := hs.searchOk hRs a2 a3
  obtain ⟨f1, gt', f2, f3⟩ := ht.searchOk (R := R.map (affine c b)) hRt b2 b3
  rw [← e1] at hRs e3
  rw [← f1] at hRt f3
  obtain ⟨l, p, s₃, e4, e5⟩ := answer_of hRs e2 e3 hf₂ hq h2 hL
  obtain ⟨l', p', t₃, f4, f5⟩ := answer_of (R := R.map (affine c b)) hRt f2 f3 hf₂' hq' (by simpa using h2) (by simpa using hL)
  obtain ⟨e6, e7⟩ := e5.scale (abs_pos.mpr hc)
    (w' := fun l x => warped ratio₂ (affine c b q) (subVals (R.map (affine c b)) l x)) (by
      intro l l2 lL g hg x hx
      have hx := hG l l2 lL g hg x hx
      rw [mem_subOrder] at hx
      have hlen : (subVals R l x).length = l.toNat := by
        refine (resolve_sub hR (by omega) ⟨?_, ?_⟩).2
        · rw [HoldsReal.count hR]
          exact hx.1
        · rw [hR.itemLength]
          omega
      simp only [subVals_affine]
      exact warped_affine (by omega) (by omega))
  rw [List.length_map] at f5
  obtain ⟨rfl, rfl⟩ := C60_answer_unique _ G G L _ _ _ _ _ (fun _ _ _ => rfl) e6 f5
  have hval : warped ratio₂ q (subVals R l p) ≠ F.pinf := e5.2.1
  have hx : ∃ x, warped ratio₂ q (subVals R l p) = F.fin x := by
    unfold warped at hval ⊢
    simp only at hval ⊢
    split at hval
    · next hn => exact ⟨_, if_pos hn⟩
    · exact absurd rfl hval
  obtain ⟨x, hx⟩ := hx
  refine ⟨l, p, x, s₃, t₃, ?_, ?_⟩
  · rw [e4, hx, e1, a1]
  · rw [f4, f1, b1]
    rw [hx] at e7
    have : warped ratio₂ (List.map (fun x => c * x + b) q) (subVals (R.map (affine c b)) l p) = F.fin (|c| * x) := e7
    rw [this]

end real

/-- A case: `[0, 0]`, `[2, 2]` and `[3, 3]` with threshold 4, and the same data upside down, doubled and shifted. -/
example (io : NumIO XF) (stod : Text → Stod XF) :
    let env : Env XF := ⟨F.fin 0, F.nan, io, stod, fun _ => false⟩
    let t : GSet XF := ⟨⟨some (fins [7, 7, 3, 3, 1, 1]), 0, 2, 3, "", false⟩, none, none⟩
    ∃ t₁, t.groupAllLengths env "euclidean" (F.fin 8) = (.ok 2, t₁) ∧
      ∃ (l : Int) (p : Coord) (x : ℝ) (s₃ t₃ : GSet XF),
        Three.grouped.getBestMatch env (Series.mk' (fins [2, 2])) = (.ok { ts := subView Three.ds l p, dist := F.fin x }, s₃) ∧
        t₁.getBestMatch env (Series.mk' (fins [3, 3])) = (.ok { ts := subView t.ds l p, dist := F.fin (2 * x) }, t₃) := by
  intro env t
  have hR' : t.ds.Holds 2 ([[7, 7], [3, 3], [1, 1]].map fins) := by
    refine ⟨?_, rfl, rfl, [], by simp [t, fins]⟩
    intro r hr
    simp only [List.map_cons, List.map_nil, List.mem_cons, List.not_mem_nil, or_false] at hr
    rcases hr with rfl | rfl | rfl <;> rfl
  have hmap : (([[0, 0], [2, 2], [3, 3]] : List (List ℝ)).map fun r => r.map fun x => (-2) * x + 7) = [[7, 7], [3, 3], [1, 1]] := by
    norm_num
  have hth : F.fin (|(-2 : ℝ)| * 4) = (F.fin 8 : XF) := by norm_num
  have h := Three.group_eq env rfl fun _ => rfl
  have hfit : FitEnv env 2 0 := fit0 rfl 2
  obtain ⟨n', t₁, h'⟩ := C36_completes_partial env 0 rfl t 2 _ hR' hfit.fits "euclidean" (Or.inl rfl) (F.fin 8)
    (Or.inr fun _ => rfl)
  rw [← hmap] at hR'
  have h'' := h'
  rw [← hth] at h'
  obtain ⟨rfl, _⟩ := C61_same_groups (-2) 7 (by norm_num) 2 _ (by simp) ⟨Three.ds, none, none⟩ t Three.grouped t₁ Three.holds hR' env
    env 0 hfit hfit "euclidean" (Or.inl rfl) 4 2 n' h h'
  refine ⟨t₁, h'', ?_⟩
  obtain ⟨l, p, x, s₃, t₃, e1, e2⟩ := C61_same_answer (-2) 7 (by norm_num) 2 _ (by simp) ⟨Three.ds, none, none⟩ t Three.grouped t₁
    Three.holds hR' env env 0 hfit hfit "euclidean" (Or.inl rfl) 4 _ _ h h' Three.grouped t₁ .none .none env env 0 hfit hfit [2, 2]
    (Series.mk' (fins [2, 2])) (Series.mk' (fins [3, 3])) (seriesOk_mk _)
    (by
      have : ([2, 2] : List ℝ).map (fun x => (-2) * x + 7) = [3, 3] := by norm_num
      rw [this]
      exact seriesOk_mk _) (by simp) (by simp)
  refine ⟨l, p, x, s₃, t₃, e1, ?_⟩
  rw [e2]
  norm_num

theorem scaled_affine {c b lo hi v : ℝ} (hc : c ≠ 0) : scaled (c * lo + b) (c * hi + b) (c * v + b) = scaled lo hi v := by
  unfold scaled
  have e : c * lo + b = c * hi + b ↔ lo = hi :=
    ⟨fun h => mul_left_cancel₀ hc (by linarith), fun h => by rw [h]⟩
  by_cases h : lo = hi
  · rw [if_pos h, if_pos (e.mpr h)]
  · rw [if_neg h, if_neg fun h' => h (e.mp h')]
    rw [show c * v + b - (c * lo + b) = c * (v - lo) by ring, show c * hi + b - (c * lo + b) = c * (hi - lo) by ring]
    exact mul_div_mul_left _ _ hc

/-- C61: with `c > 0`, normalising leaves the very same values (on the shapes where C20 holds), and reports extremes changed in the
same way. -/
theorem C61_normalized_partial (c b : ℝ) (hc : 0 < c) {ds dt : Dataset XF} {L : Nat} {R : List (List ℝ)} (h : ds.Holds L (R.map fins))
    (h' : dt.Holds L ((R.map fun r => r.map fun x => c * x + b).map fins)) (h1 : 1 ≤ L) (h2 : L < 2 ^ 31) (hR : 1 ≤ R.length)
    (hpar : Even L ∨ Odd R.length) :
    ∃ (lo hi : ℝ) (ds' dt' : Dataset XF) (R' : List (List ℝ)), ds.normalize = (.ok (F.fin lo, F.fin hi), ds') ∧
      dt.normalize = (.ok (F.fin (c * lo + b), F.fin (c * hi + b)), dt') ∧ ds'.Holds L (R'.map fins) ∧ dt'.Holds L (R'.map fins) := by
  obtain ⟨lo, hi, ds', g1, g2, g3, g4, _⟩ := C20_normalize_partial h h1 h2 hR hpar
  obtain ⟨lo', hi', dt', k1, k2, k3, k4, _⟩ := C20_normalize_partial h' h1 h2 (by simpa using hR) (by simpa using hpar)
  have hv := values_map R fun x => c * x + b
  rw [hv] at k2 k3
  have e1 : lo' = c * lo + b := by
    refine k2.unique ⟨⟨lo, g2.1, rfl⟩, ?_⟩
    rintro _ ⟨v, hv, rfl⟩
    have := mul_le_mul_of_nonneg_left (g2.2 hv) hc.le
    simp only
    linarith
  have e2 : hi' = c * hi + b := by
    refine k3.unique ⟨⟨hi, g3.1, rfl⟩, ?_⟩
    rintro _ ⟨v, hv, rfl⟩
    have := mul_le_mul_of_nonneg_left (g3.2 hv) hc.le
    simp only
    linarith
  subst e1 e2
  refine ⟨lo, hi, ds', dt', R.map fun r => r.map (scaled lo hi), g1, k1, ?_, ?_⟩
  · rw [List.map_map]
    exact g4
  · rw [List.map_map] at k4 ⊢
    convert k4 using 2
    funext r
    simp only [Function.comp, List.map_map]
    congr 1
    refine List.map_congr_left fun v _ => ?_
    simp only [Function.comp]
    exact (scaled_affine hc.ne').symm

example : ∃ ds dt : Dataset XF, ds.Holds 2 ([[1, 2], [3, 5]].map fins) ∧
    dt.Holds 2 (([[1, 2], [3, 5]].map fun r => r.map fun x => (2 : ℝ) * x + 1).map fins) :=
  ⟨⟨some (fins [1, 2, 3, 5]), 0, 2, 2, "", false⟩, ⟨some (fins [2 * 1 + 1, 2 * 2 + 1, 2 * 3 + 1, 2 * 5 + 1]), 0, 2, 2, "", false⟩,
    ⟨by simp [fins], rfl, rfl, [], rfl⟩, ⟨by simp [fins], rfl, rfl, [], by simp [fins]⟩⟩

end Onex
