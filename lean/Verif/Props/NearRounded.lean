import Verif.Proofs.NearHonest
import Verif.Props.Accurate
import Verif.Props.NearBest

/-!
# Property C58: searches under rounding are optimal up to the rounding errors
-/

namespace Onex
open DataT Spec

section
variable {ρ : Rounding} {u : ℝ} (hu : RelErr ρ u)

theorem scl_scl (κ : ℝ) (x : ℝ) : scl κ (scl κ (F.fin x : F ρ)) = F.fin (κ ^ 2 * x) := by
  simp only [scl]
  congr 1
  ring

include hu in
/-- C58: whatever the rounding, the distance reported with a match is at most the computed distance between the query and every
representative of every length visited, up to ten rounding errors (however long the series are). The lengths visited are those
of C32. -/
theorem C58_best_of_representatives (s₀ s : GSet (F ρ)) (L : Nat) (R : List (List ℝ))
    (hR : s₀.ds.Holds L (R.map fins)) (hne : R ≠ []) (hs : Searched s₀ L s) (env : Env (F ρ))
    (ratio : ℝ) (hf : FitEnv env L ratio) (q : List ℝ) (query : Series (F ρ))
    (hq : SeriesOk query q) (h2 : 2 ≤ q.length) (hL : q.length ≤ L) :
    ∃ x v s' order, s.getBestMatch env query = (.ok { ts := v, dist := F.fin x }, s') ∧ 0 ≤ x ∧
      generateTraverseOrder (F.fin ratio : F ρ) q.length L = .ok order ∧
      ∀ l ls, l ∈ order → GroupsOf s l ls → ∀ (k : Nat) (hk : k < ls.groups.length), ∃ a w, RepValues s.ds ls.groups[k] a ∧
        (a.length : Int) = l ∧ warpedDistance (F.fin ratio) (fins q) (fins a) F.pinf = .ok (F.fin w : F ρ) ∧
        (1 - u) ^ 10 * x ≤ w := by
  obtain ⟨hds, gs, MM, AA, hg, hok, hrep⟩ := searched_inv hR hne hs
  obtain ⟨l, c, gs', order, k, hM, hA, e, ⟨l2, lL⟩, hsub, hfin, hok', _, hord, hc, _, _, _, _, _, hnear⟩ :=
    globalMatch_group hR env.junk hf.fits hok h2 hL hq
  have hrun := getBestMatch_of hf.eq hg (query := query)
  rw [hds, e] at hrun
  simp only at hrun
  obtain ⟨b1, b2⟩ := hnear _ (hu.nearHonest env.junk ratio)
  obtain ⟨m, m1, m2⟩ := hrep l l2 lL k hM hA
  obtain ⟨order', t1, _, _, t2⟩ := C32_traverse_rounded ρ ratio q.length L h2 hL hf.fits
  rw [hord, Res.ok.injEq] at t1
  subst t1
  have hclen := (resolve_sub hR (by omega) hsub).2
  rcases wrd_val (ρ := ρ) ratio q (subVals R l c) (by omega) with e' | ⟨x, hx0, hx⟩
  · exact absurd e' hfin
  rw [hx] at hrun
  refine ⟨x, _, _, order, hrun, hx0, hord, ?_⟩
  rintro l' ls hin ⟨gs0, g1, g2⟩ k' hk'
  rw [hg, Option.some.injEq] at g1
  subst g1
  have hl' := (t2 l' hin).1
  obtain ⟨ls', g3, hlo⟩ := hok.at_ l' hl'.1 hl'.2
  rw [g2] at g3
  simp only [Res.ok.injEq, Option.some.injEq] at g3
  subst g3
  have hkA : k' < (AA l').length := by rw [← hlo.cents.1]; exact hk'
  obtain ⟨sc, s1, s2⟩ := hlo.cents.2 k' hk' hkA
  have hlenA := hlo.lenA _ (List.getElem_mem hkA)
  obtain ⟨w, hw⟩ := (t2 l' hin).2 q (AA l')[k'] rfl (by omega)
  refine ⟨(AA l')[k'], w, ⟨sc, by rw [hds]; exact s1, s2.vals⟩, by omega, hw, ?_⟩
  have hW' : wrd ρ ratio (AA l')[k'] q = F.fin w := by
    rw [wrd_comm]
    rw [warped_inf (hf.fits _ (by omega)) (by omega) (by omega), Res.ok.injEq] at hw
    exact hw
  have n1 := b2 l' hin _ (List.getElem_mem hkA)
  have n2 := b1 m m1
  have hAlen : ((AA l)[k]).length = l.toNat := by
    obtain ⟨ls1, _, hlo1⟩ := hok.at_ l l2 lL
    exact hlo1.lenA _ (List.getElem_mem hA)
  rw [← m2, wrd_comm, hx] at n2
  rw [hW'] at n1
  have hp : 0 < (1 - u) ^ 5 := pow_pos (by linarith [hu.lt_one]) 5
  rcases wrd_val (ρ := ρ) ratio (AA l)[k] q (by omega) with e' | ⟨z, _, hz⟩
  · rw [e', lt_iff] at n1
    exact absurd trivial n1
  · rw [hz, lt_iff] at n1 n2
    simp only [scl, F.Lt, not_lt] at n1 n2
    rw [one_div, inv_mul_eq_div, le_div_iff₀ hp] at n1 n2
    calc (1 - u) ^ 10 * x = (x * (1 - u) ^ 5) * (1 - u) ^ 5 := by ring
      _ ≤ z * (1 - u) ^ 5 := mul_le_mul_of_nonneg_right n2 hp.le
      _ ≤ w := n1

variable (s₀ s₁ s : GSet (F ρ)) (L : Nat) (R : List (List ℝ)) (hR : s₀.ds.Holds L (R.map fins)) (hne : R ≠ [])
  (env₀ env : Env (F ρ)) (ratio₀ ratio : ℝ) (hf₀ : FitEnv env₀ L ratio₀) (hf : FitEnv env L ratio)
  (st : ℝ) (hst : 0 ≤ st) (n : Int)
  (q : List ℝ) (query : Series (F ρ)) (hq : SeriesOk query q) (h2 : 2 ≤ q.length) (hL : q.length ≤ L)

include hu hR hf₀ hst in
/-- The representative of the group a sub-series is in, after any number of matches. -/
theorem rounded_rep_of_window (h : s₀.groupAllLengths env₀ "euclidean" (F.fin st) = (.ok n, s₁)) (hs : Matches L s₁ s)
    (i b l : Nat) (hi : i < R.length) (hl : 2 ≤ l) (hb : b + l ≤ L) :
    ∃ ls, GroupsOf s l ls ∧ ∃ (k : Nat) (hk : k < ls.groups.length) (rep : List ℝ), RepValues s.ds ls.groups[k] rep ∧
      rep.length = l ∧ (((R.getD i []).drop b).take l).length = l ∧
      (1 - u) ^ (l + 6) * rms rep (((R.getD i []).drop b).take l) ^ 2 ≤ ((1 + u) * (st / 2)) ^ 2 := by
  have hcnt := HoldsReal.count hR
  obtain ⟨p1, p2⟩ := C25_partition env₀ "euclidean" (F.fin st) s₀ s₁ n (by omega) h
  obtain ⟨ls, hls⟩ := p1 l (by omega) (by rw [hR.itemLength]; omega)
  obtain ⟨_, _, M, hM⟩ := p2 l ls hls
  have hsub : IsSub s₀.ds.itemCount s₀.ds.itemLength (l : Int) ((i : Int), (b : Int)) := by
    rw [hcnt, hR.itemLength]
    exact ⟨⟨by simp, by simp only; omega⟩, by simp, by simp only; omega⟩
  have hmem := (hM.all _).mpr hsub
  obtain ⟨m, hm1, hm2⟩ := List.mem_flatten.mp hmem
  obtain ⟨k, hk', rfl⟩ := List.getElem_of_mem hm1
  have hk : k < ls.groups.length := by rw [← hM.card]; exact hk'
  obtain ⟨e1, _, _⟩ := hM.members k hk hk'
  obtain ⟨rep, r1, r0, vs, r2, r3⟩ := C57_group_accurate hu env₀ ratio₀ hf₀.eq s₀ s₁ L R hR hf₀.fits st hst n h l ls hls k hk
  rw [e1, Res.ok.injEq] at r2
  subst r2
  obtain ⟨y, y1, y2, y3⟩ := r3 _ (List.mem_map_of_mem hm2)
  obtain ⟨z1, z2⟩ := resolve_sub hR (by omega : (1 : Int) ≤ l) hsub
  unfold SubValues at y1
  rw [z1, Res.ok.injEq] at y1
  have hy : subVals R (l : Int) ((i : Int), (b : Int)) = y := fins_inj y1
  have hv : subVals R (l : Int) ((i : Int), (b : Int)) = ((R.getD i []).drop b).take l := by simp [subVals]
  obtain ⟨d1, ls', g1, g2⟩ := hs.groupsOf hls
  have hk2 : k < ls'.groups.length := by rw [← g2.groups.length_eq]; exact hk
  have hsame := (List.forall₂_iff_get.mp g2.groups).2 k hk hk2
  simp only [List.get_eq_getElem] at hsame
  rw [hv] at z2 hy
  have hds := (groupAllLengths_ok h).1
  have hrl : rep.length = l := by omega
  refine ⟨ls', g1, k, hk2, rep, ?_, hrl, by simpa using z2, ?_⟩
  · rw [d1, hds]
    exact repValues_same hsame r1
  · rw [hrl] at y3
    rw [hy]
    exact y3

include hu hR hne hf₀ hf hst hq h2 hL in
/-- C58, the promise of C55 under rounding: for data grouped by the Euclidean distance with threshold `st`, the distance
reported exceeds the true warped distance between the query and any sub-series of a length visited by at most `st / 2`, scaled as
in C55, up to a factor that is 1 in exact arithmetic. The band is the one the code computes. -/
theorem C58_near_best (h : s₀.groupAllLengths env₀ "euclidean" (F.fin st) = (.ok n, s₁)) (hs : Matches L s₁ s) :
    ∃ x v s' order, s.getBestMatch env query = (.ok { ts := v, dist := F.fin x }, s') ∧ 0 ≤ x ∧
      generateTraverseOrder (F.fin ratio : F ρ) q.length L = .ok order ∧
      ∀ i b l : ℕ, i < R.length → (l : Int) ∈ order → b + l ≤ L →
        ∃ r : ℕ, calculateWarpingBandSize (F.fin ratio : F ρ) (max q.length l : ℕ) = .ok (r : Int) ∧
          (warpCosts r q (((R.getD i []).drop b).take l)).Nonempty ∧
          (1 - u) ^ (l + 16) * x ≤ (1 + u) ^ (q.length + l + 6) * (warpedIn r q (((R.getD i []).drop b).take l) +
            Real.sqrt ((2 * r + 1) * l) * (st / 2) / (2 * max (q.length : ℝ) l)) := by
  obtain ⟨x, v, s', order, e, hx, hord, hall⟩ := C58_best_of_representatives hu s₀ s L R hR hne (hs.searched (.grouped hf₀ h)) env
    ratio hf q query hq h2 hL
  refine ⟨x, v, s', order, e, hx, hord, ?_⟩
  intro i b l hi hin hb
  obtain ⟨order', t1, _, _, t2⟩ := C32_traverse_rounded ρ ratio q.length L h2 hL hf.fits
  rw [hord, Res.ok.injEq] at t1
  subst t1
  obtain ⟨⟨hl, hlL⟩, hfin⟩ := t2 l hin
  obtain ⟨ls, g1, k, hk, rep, r1, r2, r3, r4⟩ := rounded_rep_of_window hu s₀ s₁ s L R hR env₀ ratio₀ hf₀ st hst n h hs i b l hi
    (by omega) hb
  set y := ((R.getD i []).drop b).take l with hy
  obtain ⟨a, w, a1, a2, a3, a4⟩ := hall l ls hin g1 k hk
  obtain rfl := repValues_unique a1 r1
  obtain ⟨r, c1, c2, c3⟩ := C57_warped_accurate hu ratio q a (hf.fits _ (by omega)) h2 (by omega)
  rw [r2] at c1
  have hne1 : (warpCosts r q a).Nonempty := by
    by_contra hcon
    rw [c2 hcon, Res.ok.injEq] at a3
    cases a3
  have hne2 : (warpCosts r q y).Nonempty := by
    rw [warpCosts_nonempty] at hne1 ⊢
    rwa [r3, ← r2]
  refine ⟨r, c1, hne2, ?_⟩
  obtain ⟨D, d0, d1, d2, _⟩ := c3 hne1
  rw [a3, Res.ok.injEq] at d1
  obtain rfl := F.fin.inj d1
  rw [r2] at d2
  have hc : 0 ≤ 1 - u := by linarith [hu.lt_one]
  have hc1 : 1 - u ≤ 1 := by linarith [hu.nonneg]
  have hE : ∀ k, 1 ≤ (1 + u) ^ k := one_le_pow_add hu.nonneg
  -- the computed distance to the representative
  have w1 : w ≤ (1 + u) ^ (q.length + l + 5) * warpedIn r q a := by
    refine le_of_sq_le_sq₀ (d2.2.trans ?_) (mul_nonneg (by linarith [hE (q.length + l + 5)]) (warpedIn_nonneg _ _ _))
    rw [mul_pow]
    refine mul_le_mul_of_nonneg_right ?_ (sq_nonneg _)
    nlinarith [hE (q.length + l + 5)]
  -- the representative and the sub-series
  have w2 : (1 - u) ^ (l + 6) * rms y a ≤ (1 + u) * (st / 2) := by
    rw [rms_comm _ _ (by rw [r2, r3])]
    refine le_of_sq_le_sq₀ (le_trans ?_ r4) (mul_nonneg (by linarith [hu.nonneg]) (by linarith))
    rw [mul_pow]
    refine mul_le_mul_of_nonneg_right ?_ (sq_nonneg _)
    rw [sq]
    exact mul_le_of_le_one_left (pow_nonneg hc _) (pow_le_one₀ hc hc1)
  have w3 := warpedIn_triangle (r := r) q a y (by rw [r2, r3]) (by omega) hne2
  rw [r3] at w3
  set S := Real.sqrt ((2 * r + 1) * l) with hS
  set M := 2 * max (q.length : ℝ) l with hM
  have hS0 : 0 ≤ S := Real.sqrt_nonneg _
  have hM0 : 0 ≤ M := by positivity
  have hP : 0 ≤ (1 - u) ^ (l + 6) := pow_nonneg hc _
  have hP1 : (1 - u) ^ (l + 6) ≤ 1 := pow_le_one₀ hc hc1
  have hwy := warpedIn_nonneg r q y
  have w4 : (1 - u) ^ (l + 6) * warpedIn r q a ≤ (1 + u) * (warpedIn r q y + S * (st / 2) / M) := by
    calc (1 - u) ^ (l + 6) * warpedIn r q a ≤ (1 - u) ^ (l + 6) * (warpedIn r q y + S * rms y a / M) :=
          mul_le_mul_of_nonneg_left w3 hP
      _ = (1 - u) ^ (l + 6) * warpedIn r q y + S * ((1 - u) ^ (l + 6) * rms y a) / M := by ring
      _ ≤ (1 + u) * warpedIn r q y + S * ((1 + u) * (st / 2)) / M := by
          refine add_le_add (mul_le_mul_of_nonneg_right (by linarith [hu.nonneg]) hwy) ?_
          exact div_le_div_of_nonneg_right (mul_le_mul_of_nonneg_left w2 hS0) hM0
      _ = (1 + u) * (warpedIn r q y + S * (st / 2) / M) := by ring
  calc (1 - u) ^ (l + 16) * x = (1 - u) ^ (l + 6) * ((1 - u) ^ 10 * x) := by ring
    _ ≤ (1 - u) ^ (l + 6) * ((1 + u) ^ (q.length + l + 5) * warpedIn r q a) := mul_le_mul_of_nonneg_left (a4.trans w1) hP
    _ = (1 + u) ^ (q.length + l + 5) * ((1 - u) ^ (l + 6) * warpedIn r q a) := by ring
    _ ≤ (1 + u) ^ (q.length + l + 5) * ((1 + u) * (warpedIn r q y + S * (st / 2) / M)) :=
        mul_le_mul_of_nonneg_left w4 (by linarith [hE (q.length + l + 5)])
    _ = _ := by ring

end

section double
variable (s₀ s₁ s : GSet (F Rounding.double)) (L : Nat) (R : List (List ℝ)) (hR : s₀.ds.Holds L (R.map fins)) (hne : R ≠ [])
  (env₀ env : Env (F Rounding.double)) (ratio₀ ratio : ℝ) (h₀ : env₀.ratio = F.fin ratio₀) (h₀0 : 0 ≤ ratio₀) (h₀1 : ratio₀ ≤ 1)
  (he : env.ratio = F.fin ratio) (hr0 : 0 ≤ ratio) (hr1 : ratio ≤ 1)
  (st : ℝ) (hst : 0 ≤ st) (n : Int)
  (q : List ℝ) (query : Series (F Rounding.double)) (hq : SeriesOk query q) (h2 : 2 ≤ q.length) (hL : q.length ≤ L)

include hR hne h₀ h₀0 h₀1 he hr0 hr1 hst hq h2 hL in
/-- C58 in `double` arithmetic: for series of up to a million values and sub-series of the length of the query, the factor is at
most 1 + 10⁻⁹. -/
theorem C58_double (hL6 : L ≤ 1000000) (h : s₀.groupAllLengths env₀ "euclidean" (F.fin st) = (.ok n, s₁)) (hs : Matches L s₁ s) :
    ∃ x v s', s.getBestMatch env query = (.ok { ts := v, dist := F.fin x }, s') ∧ 0 ≤ x ∧
      ∀ i b : ℕ, i < R.length → b + q.length ≤ L →
        ∃ r : ℕ, calculateWarpingBandSize (F.fin ratio : F Rounding.double) q.length = .ok (r : Int) ∧
          x ≤ (1 + 1 / 10 ^ 9) * (warpedIn r q (((R.getD i []).drop b).take q.length) +
            Real.sqrt ((2 * r + 1) * q.length) * (st / 2) / (2 * q.length)) := by
  have hf₀ : FitEnv env₀ L ratio₀ := ⟨h₀, fun l hl => ratioOk_double h₀0 h₀1 l (by omega)⟩
  have hf : FitEnv env L ratio := ⟨he, fun l hl => ratioOk_double hr0 hr1 l (by omega)⟩
  obtain ⟨x, v, s', order, e, hx, hord, hall⟩ := C58_near_best relErr_double s₀ s₁ s L R hR hne env₀ env ratio₀ ratio hf₀ hf st hst n
    q query hq h2 hL h hs
  refine ⟨x, v, s', e, hx, ?_⟩
  intro i b hi hb
  obtain ⟨order', t1, t2, _⟩ := C32_traverse_rounded Rounding.double ratio q.length L h2 hL hf.fits
  rw [hord, Res.ok.injEq] at t1
  subst t1
  obtain ⟨r, r1, _, r3⟩ := hall i b q.length hi (List.mem_of_mem_head? (by rw [t2]; rfl)) hb
  rw [max_self] at r1 r3
  refine ⟨r, r1, ?_⟩
  set Y := warpedIn r q (((R.getD i []).drop b).take q.length) + Real.sqrt ((2 * r + 1) * q.length) * (st / 2) / (2 * q.length) with hY
  have hY0 : 0 ≤ Y := add_nonneg (warpedIn_nonneg _ _ _) (by positivity)
  set u : ℝ := 1 / 2 ^ 53 with hu
  have hu0 : 0 ≤ u := by positivity
  have hu1 : u ≤ 1 := by rw [hu]; norm_num
  have bern : ∀ k : ℕ, k ≤ 3000000 → 1 - 3000000 * u ≤ (1 - u) ^ k := by
    intro k hk
    have h1 := one_add_mul_le_pow (show (-2 : ℝ) ≤ -u by linarith) k
    rw [← sub_eq_add_neg] at h1
    have h3 : (k : ℝ) ≤ 3000000 := by exact_mod_cast hk
    nlinarith
  have p1 := bern (q.length + 16) (by omega)
  have p2 := bern (q.length + q.length + 6) (by omega)
  have p3 : (1 - u) ^ (q.length + q.length + 6) * (1 + u) ^ (q.length + q.length + 6) ≤ 1 := by
    rw [← mul_pow]
    exact pow_le_one₀ (mul_nonneg (by linarith) (by linarith)) (by nlinarith)
  have hpos : 0 < 1 - 3000000 * u := by rw [hu]; norm_num
  have p4 : (1 - 3000000 * u) * (1 + u) ^ (q.length + q.length + 6) ≤ 1 :=
    (mul_le_mul_of_nonneg_right p2 (by positivity)).trans p3
  have p5 : (1 - 3000000 * u) * ((1 - 3000000 * u) * x) ≤ Y := by
    calc _ ≤ (1 - 3000000 * u) * ((1 + u) ^ (q.length + q.length + 6) * Y) :=
          mul_le_mul_of_nonneg_left ((mul_le_mul_of_nonneg_right p1 hx).trans r3) hpos.le
      _ = ((1 - 3000000 * u) * (1 + u) ^ (q.length + q.length + 6)) * Y := by ring
      _ ≤ 1 * Y := mul_le_mul_of_nonneg_right p4 hY0
      _ = Y := one_mul _
  have p6 : 1 ≤ (1 + 1 / 10 ^ 9) * ((1 - 3000000 * u) * (1 - 3000000 * u)) := by rw [hu]; norm_num
  calc x ≤ ((1 + 1 / 10 ^ 9) * ((1 - 3000000 * u) * (1 - 3000000 * u))) * x := le_mul_of_one_le_left hx p6
    _ = (1 + 1 / 10 ^ 9) * ((1 - 3000000 * u) * ((1 - 3000000 * u) * x)) := by ring
    _ ≤ _ := mul_le_mul_of_nonneg_left p5 (by norm_num)

end double

/-- A case: two series of length 3 in `double` arithmetic; the conditions of the theorems hold after grouping and one match. -/
example (io : NumIO (F Rounding.double)) (stod : Text → Stod (F Rounding.double)) :
    let R : List (List ℝ) := [[0, 1, 2], [5, 5, 6]]
    let env : Env (F Rounding.double) := ⟨F.fin (1 / 3), F.nan, io, stod, fun _ => false⟩
    let s : GSet (F Rounding.double) := ⟨⟨some (R.map fins).flatten, 0, 3, 2, "", false⟩, none, none⟩
    ∃ n s₁, s.groupAllLengths env "euclidean" (F.fin 1) = (.ok n, s₁) ∧
      ∃ c s₂, s₁.getBestMatch env (Series.mk' (fins [1, 2])) = (.ok c, s₂) ∧ Matches 3 s₁ s₂ ∧
        ∃ x v s₃, s₂.getBestMatch env (Series.mk' (fins [0, 1, 2])) = (.ok { ts := v, dist := F.fin x }, s₃) ∧
          ∃ r : ℕ, x ≤ (1 + 1 / 10 ^ 9) * (warpedIn r [0, 1, 2] [5, 5, 6] + Real.sqrt ((2 * r + 1) * 3) * (1 / 2) / (2 * 3)) := by
  intro R env s
  have hR : s.ds.Holds 3 (R.map fins) := by
    refine ⟨?_, rfl, rfl, [], by simp [s]⟩
    intro r hr
    simp only [R, List.map_cons, List.map_nil, List.mem_cons, List.not_mem_nil, or_false] at hr
    rcases hr with rfl | rfl <;> rfl
  have hf : FitEnv env 3 (1 / 3) := ⟨rfl, fun l hl => ratioOk_double (by norm_num) (by norm_num) l (by omega)⟩
  have hne : R ≠ [] := by simp [R]
  obtain ⟨n, s₁, h⟩ := C36_completes_partial env (1 / 3) rfl s 3 R hR hf.fits "euclidean" (Or.inl rfl) (F.fin 1) (Or.inr fun _ => rfl)
  obtain ⟨_, _, _, _, _, s₂, e2, _⟩ := C33_match_is_real s s₁ 3 R hR hne (.grouped hf h) env (1 / 3) hf [1, 2] _
    (seriesOk_mk _) (by simp) (by simp)
  have hm : Matches 3 s₁ s₂ := .more .none (hf.mono (by simp)) (seriesOk_mk _) e2
  refine ⟨n, s₁, h, _, s₂, e2, hm, ?_⟩
  obtain ⟨x, v, s₃, e3, _, hall⟩ := C58_double s s₁ s₂ 3 R hR hne env env (1 / 3) (1 / 3) rfl (by norm_num) (by norm_num) rfl
    (by norm_num) (by norm_num) 1 (by norm_num) n [0, 1, 2] _ (seriesOk_mk _) (by simp) (by simp) (by norm_num) h hm
  obtain ⟨r, _, hr⟩ := hall 1 0 (by simp [R]) (by simp)
  exact ⟨x, v, s₃, e3, r, by simpa [R] using hr⟩

end Onex
