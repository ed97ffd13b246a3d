import Verif.Proofs.RelErr
import Verif.Proofs.Binary
import Verif.Props.Match

/-!
# Property C57: rounding changes the distances little
-/

namespace Onex
open DataT Spec

/-- C57: rounding as `double` does is a rounding in the sense of the model (it is monotone, odd and idempotent); it finds a nearest
number of 53 bits, keeps these numbers, and has a relative error of at most 2⁻⁵³. -/
theorem C57_double :
    (∀ x, HasBits 52 (Rounding.double.f x)) ∧ (∀ x y, HasBits 52 y → |Rounding.double.f x - x| ≤ |y - x|) ∧
    (∀ y, HasBits 52 y → Rounding.double.f y = y) ∧ RelErr Rounding.double (1 / 2 ^ 53) :=
  ⟨binary_hasBits 52 _, even_nearest 52, fun _ => binary_keep 52 _, relErr_double⟩

/-- A case: it does round. -/
example : Rounding.double.f (1 / 3) ≠ 1 / 3 := by
  intro h
  obtain ⟨m, e, _, h2⟩ := C57_double.1 (1 / 3)
  rw [h] at h2
  have h3 : (1 : ℝ) = 3 * m * (2 : ℝ) ^ e := by linarith
  rcases le_total 0 e with he | he
  · obtain ⟨k, rfl⟩ := Int.eq_ofNat_of_zero_le he
    have : (1 : ℤ) = 3 * m * 2 ^ k := by
      rw [zpow_natCast] at h3
      exact_mod_cast h3
    have := Dvd.intro (m * 2 ^ k) (by rw [← mul_assoc]; exact this.symm : (3 : ℤ) * (m * 2 ^ k) = 1)
    norm_num at this
  · obtain ⟨k, hk⟩ := Int.eq_ofNat_of_zero_le (show 0 ≤ -e by omega)
    have h4 : (2 : ℝ) ^ k = 3 * m := by
      rw [show e = -(k : ℤ) by omega, zpow_neg, zpow_natCast] at h3
      field_simp at h3
      linarith
    have h5 : (2 : ℤ) ^ k = 3 * m := by exact_mod_cast h4
    have h6 : ∀ k : ℕ, (2 : ℤ) ^ k % 3 ≠ 0 := by
      intro k
      induction k with
      | zero => norm_num
      | succ k ih => rw [pow_succ]; omega
    have := h6 k
    omega

/-- The band ratios up to 1 are usable with all lengths of type `int`. -/
theorem ratioOk_double {ratio : ℝ} (h0 : 0 ≤ ratio) (h1 : ratio ≤ 1) (n : ℕ) (hn : n < 2 ^ 31) : RatioOk Rounding.double ratio n where
  nonneg := h0
  range := by
    have hn' : (n : ℝ) < 2147483648 := by exact_mod_cast hn
    have hb : HasBits 52 (n : ℝ) := ⟨n, 0, by rw [abs_of_nonneg (by positivity)]; norm_num; omega, by simp⟩
    have := Rounding.double.mono (show (n : ℝ) * ratio ≤ n by nlinarith [(Nat.cast_nonneg n : (0 : ℝ) ≤ n)])
    rw [C57_double.2.2.1 _ hb] at this
    linarith

section
variable {ρ : Rounding} {u : ℝ}

/-- C57 for the Euclidean distance: the square of the computed distance is that of the root mean square up to one
error per value and six more, so the distance itself is accurate. -/
theorem C57_pairwise_accurate (hu : RelErr ρ u) (x y : List ℝ) (hlen : x.length = y.length) (hpos : 0 < x.length) :
    ∃ D : ℝ, 0 ≤ D ∧ pairwiseDistance (fins x) (fins y) (F.pinf : F ρ) = .ok (F.fin D) ∧
      Within u (x.length + 6) (rms x y ^ 2) (D ^ 2) ∧
      ((x.length + 6) * u < 1 → |D - rms x y| ≤ (x.length + 6) * u / (1 - (x.length + 6) * u) * rms x y) := by
  obtain ⟨v, h1, _, h3⟩ := pairwise_any (ρ := ρ) x y ⟨hlen, hpos⟩ F.pinf
  rw [h3 rfl] at h1
  have hw := hu.eud x y
  refine ⟨_, eud_nonneg x y, h1, hw, fun h => ?_⟩
  have := hw.rel hu.nonneg hu.lt_one.le (Real.sqrt_nonneg _) (eud_nonneg x y) (by push_cast; exact h)
  push_cast at this
  exact this

theorem warpedIn_nonneg (r : ℕ) (a b : List ℝ) : 0 ≤ warpedIn r a b :=
  div_nonneg (Real.sqrt_nonneg _) (mul_nonneg (by norm_num) (le_max_of_le_left (Nat.cast_nonneg _)))

/-- C57 for the warped distance: in the band `r` that the code computes it is infinite only if no warping path exists, and
otherwise its square is that of the scaled root of the least cost up to one error per value and five more. -/
theorem C57_warped_accurate (hu : RelErr ρ u) (ratio : ℝ) (a b : List ℝ) (hr : RatioOk ρ ratio (max a.length b.length))
    (hm : 2 ≤ a.length) (hn : 2 ≤ b.length) :
    ∃ r : ℕ, calculateWarpingBandSize (F.fin ratio : F ρ) (max a.length b.length : ℕ) = .ok (r : Int) ∧
      (¬ (warpCosts r a b).Nonempty → warpedDistance (F.fin ratio) (fins a) (fins b) F.pinf = .ok (F.pinf : F ρ)) ∧
      ((warpCosts r a b).Nonempty → ∃ D : ℝ, 0 ≤ D ∧
        warpedDistance (F.fin ratio) (fins a) (fins b) F.pinf = .ok (F.fin D : F ρ) ∧
        Within u (a.length + b.length + 5) (warpedIn r a b ^ 2) (D ^ 2) ∧
        ((a.length + b.length + 5) * u < 1 →
          |D - warpedIn r a b| ≤ (a.length + b.length + 5) * u / (1 - (a.length + b.length + 5) * u) * warpedIn r a b)) := by
  refine ⟨_, band_ok hr (by omega), ?_, ?_⟩
  · intro h
    rw [warpCosts_nonempty] at h
    rw [warped_inf hr (by omega) (by omega), wd_pinf]
    rintro (h' | h' | h')
    · exact h h'
    · omega
    · omega
  · intro h
    rw [warpCosts_nonempty] at h
    have hw := hu.wfin (a := a) (b := b) (by omega) (by omega) h
    refine ⟨_, wfin_nonneg, ?_, hw, fun hk => ?_⟩
    · rw [warped_inf hr (by omega) (by omega)]
      exact congrArg _ (wd_fin (by omega) (Or.inl h))
    · have := hw.rel hu.nonneg hu.lt_one.le (warpedIn_nonneg _ a b) wfin_nonneg (by push_cast; exact hk)
      push_cast at this
      exact this

/-- C57 for groups: with the Euclidean distance every member is truly within half the threshold of its representative, up
to the rounding errors. -/
theorem C57_group_accurate (hu : RelErr ρ u) (env : Env (F ρ)) (ratio : ℝ) (hratio : env.ratio = F.fin ratio)
    (s s' : GSet (F ρ)) (L : Nat) (R : List (List ℝ)) (hR : s.ds.Holds L (R.map fins))
    (hfit : ∀ l ≤ L, RatioOk ρ ratio l)
    (st : ℝ) (hst : 0 ≤ st) (n : Int) (h : s.groupAllLengths env "euclidean" (F.fin st) = (.ok n, s'))
    (l : Int) (ls : LocalSpace (F ρ)) (hls : GroupsOf s' l ls) (k : Nat) (hk : k < ls.groups.length) :
    ∃ rep, RepValues s.ds ls.groups[k] rep ∧ (rep.length : Int) = l ∧
      ∃ vs, ls.groups[k].getMembers s.ds ls.memberMap = .ok vs ∧
        ∀ v ∈ vs, ∃ mem, SubValues s.ds v mem ∧ (mem.length : Int) = l ∧
          (1 - u) ^ (rep.length + 6) * rms rep mem ^ 2 ≤ ((1 + u) * (st / 2)) ^ 2 := by
  obtain ⟨_, _, hl, _⟩ := groupsOf_grouped h hls
  obtain ⟨rep, h1, h2, vs, h3, h4⟩ := C26_within_half_rounded env ratio hratio s s' L R hR hfit "euclidean" .euclidean rfl st hst n h
    l ls hls k hk
  refine ⟨rep, h1, h2, vs, h3, ?_⟩
  intro v hv
  obtain ⟨mem, m1, m2, x, sa, sb, m3, m4⟩ := h4 v hv
  refine ⟨mem, m1, m2, ?_⟩
  obtain ⟨D, d0, d1, d2, _⟩ := C57_pairwise_accurate hu rep mem (by omega) (by omega)
  have e : x = D := by
    simp only [DistName.fn, Series.mk', d1, Res.bind_ok, Res.pure_eq, Res.ok.injEq, Prod.mk.injEq] at m3
    exact F.fin.inj m3.1.symm
  subst e
  refine d2.1.trans (pow_le_pow_left₀ d0 (m4.trans ?_) 2)
  have := (hu.within (show 0 ≤ st / 2 by linarith)).2
  rwa [pow_one] at this

/-- C57 for matches: the distance reported with a match is the true warped distance of the query from the window
reported, in the band the code computes, up to the rounding errors. -/
theorem C57_match_accurate (hu : RelErr ρ u) (s₀ s : GSet (F ρ)) (L : Nat) (R : List (List ℝ)) (hR : s₀.ds.Holds L (R.map fins))
    (hne : R ≠ []) (hs : Searched s₀ L s) (env : Env (F ρ)) (ratio : ℝ) (hf : FitEnv env L ratio)
    (q : List ℝ) (query : Series (F ρ)) (hq : SeriesOk query q) (h2 : 2 ≤ q.length) (hL : q.length ≤ L) :
    ∃ (i start l : Nat) (x : ℝ) (v : View) (s' : GSet (F ρ)) (r : ℕ),
      s.getBestMatch env query = (.ok { ts := v, dist := F.fin x }, s') ∧ 0 ≤ x ∧
      i < R.length ∧ 2 ≤ l ∧ start + l ≤ L ∧ v.index = i ∧ v.start = start ∧ v.stop = start + l ∧
      calculateWarpingBandSize (F.fin ratio : F ρ) (max q.length l : ℕ) = .ok (r : Int) ∧
      (warpCosts r q (((R.getD i []).drop start).take l)).Nonempty ∧
      Within u (q.length + l + 5) (warpedIn r q (((R.getD i []).drop start).take l) ^ 2) (x ^ 2) ∧
      ((q.length + l + 5) * u < 1 → |x - warpedIn r q (((R.getD i []).drop start).take l)| ≤
        (q.length + l + 5) * u / (1 - (q.length + l + 5) * u) * warpedIn r q (((R.getD i []).drop start).take l)) := by
  obtain ⟨i, start, l, x, v, s', k1, _, _, k2, k3, k4, k5, k6, k7, _, k8⟩ :=
    C33_match_is_real s₀ s L R hR hne hs env ratio hf q query hq h2 hL
  have hlen : (((R.getD i []).drop start).take l).length = l := by
    have := hR.1 (fins (R.getD i [])) (by
      rw [List.getD_eq_getElem?_getD, List.getElem?_eq_getElem k2]
      exact List.mem_map_of_mem (List.getElem_mem _))
    rw [fins, List.length_map] at this
    simp only [List.length_take, List.length_drop]
    omega
  obtain ⟨r, b1, b2, b3⟩ := C57_warped_accurate hu ratio q (((R.getD i []).drop start).take l)
    (by rw [hlen]; exact hf.fits _ (by omega)) h2 (by omega)
  rw [hlen] at b1
  by_cases hne' : (warpCosts r q (((R.getD i []).drop start).take l)).Nonempty
  · obtain ⟨D, d0, d1, d2, d3⟩ := b3 hne'
    rw [k8, Res.ok.injEq] at d1
    obtain rfl := F.fin.inj d1
    rw [hlen] at d2 d3
    exact ⟨i, start, l, x, v, s', r, k1, d0, k2, k3, k4, k5, k6, k7, b1, hne', d2, d3⟩
  · rw [b2 hne', Res.ok.injEq] at k8
    cases k8

end

/-- A case for the distances: a million values in `double` arithmetic give the Euclidean distance to nine digits. -/
example (x y : List ℝ) (hx : x.length = 1000000) (hy : y.length = 1000000) :
    ∃ D : ℝ, pairwiseDistance (fins x) (fins y) (F.pinf : F Rounding.double) = .ok (F.fin D) ∧
      |D - rms x y| ≤ 1 / 10 ^ 9 * rms x y := by
  obtain ⟨D, _, h1, _, h2⟩ := C57_pairwise_accurate C57_double.2.2.2 x y (by omega) (by omega)
  refine ⟨D, h1, (h2 (by rw [hx]; norm_num)).trans (mul_le_mul_of_nonneg_right ?_ (Real.sqrt_nonneg _))⟩
  rw [hx]
  norm_num

/-- A case for groups and matches: `double` arithmetic, two series of length 3. -/
example (io : NumIO (F Rounding.double)) (stod : Text → Stod (F Rounding.double)) :
    let R : List (List ℝ) := [[0, 1, 2], [5, 5, 6]]
    let env : Env (F Rounding.double) := ⟨F.fin (1 / 3), F.nan, io, stod, fun _ => false⟩
    let s : GSet (F Rounding.double) := ⟨⟨some (R.map fins).flatten, 0, 3, 2, "", false⟩, none, none⟩
    s.ds.Holds 3 (R.map fins) ∧ FitEnv env 3 (1 / 3) ∧
      ∃ n s₁, s.groupAllLengths env "euclidean" (F.fin 1) = (.ok n, s₁) ∧ Searched s 3 s₁ := by
  intro R env s
  have hR : s.ds.Holds 3 (R.map fins) := by
    refine ⟨?_, rfl, rfl, [], by simp [s]⟩
    intro r hr
    simp only [R, List.map_cons, List.map_nil, List.mem_cons, List.not_mem_nil, or_false] at hr
    rcases hr with rfl | rfl <;> rfl
  have hf : FitEnv env 3 (1 / 3) := ⟨rfl, fun l hl => ratioOk_double (by norm_num) (by norm_num) l (by omega)⟩
  obtain ⟨n, s₁, h⟩ := C36_completes_partial env (1 / 3) rfl s 3 R hR hf.fits "euclidean" (Or.inl rfl) (F.fin 1) (Or.inr fun _ => rfl)
  exact ⟨hR, hf, n, s₁, h, .grouped hf h⟩

end Onex
