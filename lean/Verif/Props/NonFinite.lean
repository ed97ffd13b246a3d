import Verif.Proofs.NanGroup
import Verif.Props.Match

/-!
# C53: values that are not finite

`std::stod`, which reads the data (src/TimeSeriesSet.cpp:132) and the threshold (cli/OnexCLI.cpp:249), accepts `nan` and
`inf`, so the data, a query taken from them and the threshold can hold these.  The distances, the grouping and the search are followed here on values of any kind.
-/

namespace Onex
open DataT Spec

section any
variable {α : Type} [DataT α]

/-- C53 for the distances, for any number type, any values (not-a-number and infinities included), any cached
envelopes of the right length and any dropout: no undefined behaviour, no exception, no endless loop. -/
theorem C53_distances_defined (junk ratio : α) (a b : Series α) (m n r : Nat) (hm : 1 ≤ m) (hn : 1 ≤ n)
    (ha : Whole a m) (hb : Whole b n) (hr : calculateWarpingBandSize ratio (max m n : Nat) = .ok (r : Int))
    (dropout : α) :
    (∃ x, warpedDistance ratio a.vals b.vals dropout = .ok x) ∧
    (∃ x a' b', cascadeDistance junk ratio a b dropout = .ok (x, a', b') ∧ a'.vals = a.vals ∧ b'.vals = b.vals ∧
      Whole a' m ∧ Whole b' n) ∧
    (m = n → ∃ x, pairwiseDistance a.vals b.vals dropout = .ok x) := by
  refine ⟨?_, ?_, ?_⟩
  · exact warped_defined (by rw [ha.len, hb.len]; exact ⟨r, hr⟩) (by rw [ha.len]; exact hm) (by rw [hb.len]; exact hn) _
  · obtain ⟨⟨x, a', b'⟩, e, h⟩ := defined_cascade junk (ratio := ratio) ⟨r, hr⟩ hm hn a b dropout ha hb
    exact ⟨x, a', b', e, h⟩
  · rintro rfl
    exact pairwise_defined (by rw [ha.len, hb.len]) dropout

/-- C53 for the grouping, the part that holds: grouping data of any number type and any values with either distance
completes, provided infinity is above half the threshold (false only for an infinite or not-a-number one), the
band sizes convert to int, and there are at least five series or no progress is logged (C36). -/
theorem C53_grouping_completes_partial (env : Env α) (s : GSet α) (L : Nat) (R : List (List α)) (hR : s.ds.Holds L R)
    (hband : ∀ l : Nat, 1 ≤ l → l ≤ L → ∃ r : Nat, calculateWarpingBandSize env.ratio l = .ok (r : Int))
    (name : String) (hname : name = "euclidean" ∨ name = "euclidean_dtw") (th : α)
    (hth : gt (inf : α) (div th (ofInt 2)) = true) (hclock : 5 ≤ R.length ∨ ∀ l, env.doLog l = false) :
    ∃ n s', s.groupAllLengths env name th = (.ok n, s') := by
  have hdn : ∃ dn, getDistance name = .ok dn := by
    rcases hname with rfl | rfl
    · exact ⟨_, rfl⟩
    · exact ⟨_, rfl⟩
  obtain ⟨dn, hdn⟩ := hdn
  have hcnt := hR.itemCount
  obtain ⟨n, gs, hg⟩ := group_total (GlobalSpace.fresh : GlobalSpace α) (ratio := env.ratio) (th := th)
    (doLog := env.doLog) hdn (ds := s.ds) (by rw [hR.itemLength]; omega) (by
      intro l h1 h2
      rw [hR.itemLength] at h2
      obtain ⟨ls, e1, e2⟩ := new_ok s.ds (by omega) (l := l) (by rw [hR.itemLength]; omega)
      rw [e1, Res.bind_ok]
      refine (generate_any hR (by omega) (defined_named dn (hband l.toNat (by omega) (by omega)) (by omega)) hth _ e1
        ?_).mono (fun _ _ => trivial)
      intro h
      exact log_ok (hclock.imp (fun h => by omega) (fun h => h l)) h.2)
  have hload : s.ds.isLoaded = true := by
    obtain ⟨slack, hd⟩ := hR.data
    simp [Dataset.isLoaded, hd]
  refine ⟨n, { s with groups := some gs, threshold := some th }, ?_⟩
  unfold GSet.groupAllLengths
  rw [if_neg (by simp [hload])]
  simp only [GSet.reset]
  rw [hg]

end any

/-- The states reached from `s₀` by a grouping (any distance, any threshold below infinity) of data of any values,
followed by any number of answered matches of queries of any values. -/
inductive Spec.SearchedAny {ρ : Rounding} (s₀ : GSet (F ρ)) (L : Nat) : GSet (F ρ) → Prop where
  | grouped {env ratio name th n s'} (hf : FitEnv env L ratio) (hth : gt (inf : F ρ) (div th (ofInt 2)) = true)
      (h : s₀.groupAllLengths env name th = (.ok n, s')) : SearchedAny s₀ L s'
  | matched {s env ratio query m c s'} (hs : SearchedAny s₀ L s) (hf : FitEnv env L ratio)
      (hq : Whole query m) (h2 : 2 ≤ m) (hL : m ≤ L) (h : s.getBestMatch env query = (.ok c, s')) : SearchedAny s₀ L s'

variable {ρ : Rounding}

theorem searchedAny_inv {s₀ s : GSet (F ρ)} {L : Nat} {R : List (List (F ρ))} (hR : s₀.ds.Holds L R) (hne : R ≠ [])
    (h : SearchedAny s₀ L s) : s.ds = s₀.ds ∧ ∃ gs, s.groups = some gs ∧ SearchAny s₀.ds L gs.locals := by
  induction h with
  | grouped hf hth h => exact grouped_searchAny hR hf.eq hf.fits hth h
  | @matched s env ratio query m c s' hs hf hq h2 hL h ih =>
    obtain ⟨hds, gs, hg, hok⟩ := ih
    rw [getBestMatch_of hf.eq hg, hds] at h
    obtain ⟨_, _, _, t, _, hi, hres⟩ := globalMatch_any hR hne env.junk hf.fits hok hq h2 hL
    rcases hres with ⟨_, e⟩ | ⟨l, c', x, _, _, e⟩
    · rw [e] at h
      simp at h
    · rw [e] at h
      simp only [Prod.mk.injEq] at h
      obtain ⟨_, rfl⟩ := h
      exact ⟨rfl, _, rfl, hi.ok⟩

/-- C53 for the search, the part that holds: whatever the values of the data and of the query, a match either
is answered with a window of at least two values of one of the series, or dereferences a null pointer;
nothing else can go wrong, and the groups stay fit for the next search. -/
theorem C53_search_partial (s₀ s : GSet (F ρ)) (L : Nat) (R : List (List (F ρ))) (hR : s₀.ds.Holds L R) (hne : R ≠ [])
    (hs : SearchedAny s₀ L s) (env : Env (F ρ)) (ratio : ℝ) (hf : FitEnv env L ratio) (query : Series (F ρ)) (m : Nat)
    (hq : Whole query m) (h2 : 2 ≤ m) (hL : m ≤ L) :
    s.getBestMatch env query = (.ub "null dereference", s) ∨
    ∃ (i start l : Nat) (v : View) (x : F ρ) (s' : GSet (F ρ)),
      s.getBestMatch env query = (.ok { ts := v, dist := x }, s') ∧ SearchedAny s₀ L s' ∧ s'.ds = s.ds ∧
      i < R.length ∧ 2 ≤ l ∧ start + l ≤ L ∧ v.index = i ∧ v.start = start ∧ v.stop = start + l ∧
      s.ds.resolve v = .ok (((R.getD i []).drop start).take l) := by
  obtain ⟨hds, gs, hg, hok⟩ := searchedAny_inv hR hne hs
  have hrun := getBestMatch_of hf.eq hg (query := query)
  rw [hds] at hrun
  obtain ⟨_, _, _, t, _, hi, hres⟩ := globalMatch_any hR hne env.junk hf.fits hok hq h2 hL
  rcases hres with ⟨_, e⟩ | ⟨l, c, x, ⟨l2, lL⟩, hsub, e⟩
  · left
    rw [e] at hrun
    exact hrun
  · right
    rw [e] at hrun
    simp only at hrun
    obtain ⟨r1, _⟩ := resolve_any hR (by omega : 1 ≤ l) hsub
    obtain ⟨⟨b1, b2⟩, b3, b4⟩ := hsub
    rw [hR.itemCount] at b2
    rw [hR.itemLength] at b4
    refine ⟨c.1.toNat, c.2.toNat, l.toNat, subView s₀.ds l c, x, _, hrun,
      SearchedAny.matched hs hf hq h2 hL hrun, hds.symm, by omega, by omega, by omega, ?_, ?_, ?_, ?_⟩
    · simp only [subView]
      omega
    · simp only [subView]
      omega
    · simp only [subView]
      omega
    · rw [hds, r1]
      rfl

/-- C53 is false of the search: a query whose last value is not-a-number makes it dereference a null pointer,
whatever the data and whatever was asked before. -/
theorem C53_nan_query_counterexample (s₀ s : GSet (F ρ)) (L : Nat) (R : List (List (F ρ))) (hR : s₀.ds.Holds L R)
    (hne : R ≠ []) (hs : SearchedAny s₀ L s) (env : Env (F ρ)) (ratio : ℝ) (hf : FitEnv env L ratio)
    (q : List (F ρ)) (h1 : 1 ≤ q.length) (hL : q.length + 1 ≤ L) :
    s.getBestMatch env (Series.mk' (q ++ [F.nan])) = (.ub "null dereference", s) := by
  obtain ⟨hds, gs, hg, hok⟩ := searchedAny_inv hR hne hs
  rw [getBestMatch_of hf.eq hg, hds, globalMatch_dead hR hne env.junk hf.fits hok (whole_mk (q ++ [F.nan]))
    (by simp; omega) (by simp; omega) (by simp [Series.mk'])]

/-- C53 is false of the grouping: with an infinite or not-a-number threshold, a not-a-number among the first two
values of the second series makes it use an index that was never set (or, earlier still, divide by zero: C36),
whatever the clock, the band ratio and the other values. -/
theorem C53_nan_grouping_counterexample (env : Env (F ρ)) (s : GSet (F ρ)) (L : Nat) (R : List (List (F ρ)))
    (hR : s.ds.Holds L R) (hL : 2 ≤ L) (h2 : 2 ≤ R.length) (p : Nat) (hp : p < 2)
    (hnan : (R.getD 1 [])[p]? = some F.nan) (th : F ρ) (hth : th = F.nan ∨ th = F.pinf) :
    ∃ why, (s.groupAllLengths env "euclidean" th).1 = .ub why := by
  have hth' : gt (inf : F ρ) (div th (ofInt 2)) = false := by
    rcases hth with rfl | rfl
    · exact lt_nan_left _
    · rw [ofInt_F, div_pinf _ (by norm_num)]
      exact lt_pinf _
  have hcnt := hR.itemCount
  have hlen := hR.itemLength
  obtain ⟨ls, e1, _⟩ := new_ok s.ds (by omega) (l := 2) (by omega)
  obtain ⟨why, e2⟩ := place_two_ub hR h2 hL hp hnan hth' env.ratio e1 (env.doLog 2)
  have hg : ∃ gs, (GlobalSpace.fresh : GlobalSpace (F ρ)).group env.ratio s.ds "euclidean" th env.doLog =
      (.ub why, gs) := by
    unfold GlobalSpace.group
    simp only [getDistance, if_true]
    rw [if_neg (by omega), forInt_succ (by omega), e1]
    simp only [Res.bind_ok, e2]
    exact ⟨_, rfl⟩
  obtain ⟨gs, hg⟩ := hg
  have hload : s.ds.isLoaded = true := by
    obtain ⟨slack, hd⟩ := hR.data
    simp [Dataset.isLoaded, hd]
  refine ⟨why, ?_⟩
  unfold GSet.groupAllLengths
  rw [if_neg (by simp [hload])]
  simp only [GSet.reset]
  rw [hg]

/-- A not-a-number can be lost: with a band of zero the warped distance between `[nan, 1]` and `[5, 1]` is 0, because
the first cell of the matrix is not-a-number, every comparison with it fails, and the cell read instead is one
outside the band that was never written. -/
theorem C53_nan_lost_counterexample :
    warpedDistance (F.fin 0 : F Rounding.exact) [F.nan, F.fin 1] [F.fin 5, F.fin 1] F.pinf = .ok (F.fin 0) := by
  have hband : calculateWarpingBandSize (F.fin 0 : F Rounding.exact) 2 = .ok 0 := by
    have := band_ok (ρ := Rounding.exact) (ratioOk_of (ratio := 0) (L := 2) (by norm_num) (by norm_num) 2 (le_refl _)) (by norm_num)
    have hb : bandOf Rounding.exact 0 2 = 0 := by simp [bandOf]
    simpa [hb] using this
  have heuc : euc (F.nan : F Rounding.exact) (F.fin 5) = F.nan := rfl
  have hcell : warpedCell [F.nan, F.fin 1] [F.fin 5, F.fin 1] 0 1 1
      ([[F.nan, F.fin 0], [F.fin 0, inf]], (inf : F Rounding.exact)) =
      .ok ([[F.nan, F.fin 0], [F.fin 0, F.fin 0]], DataT.min inf (F.fin 0)) := by
    simp [warpedCell, mget, mset, vget, vset, tsGet, len, inf_F]
  have hrow : warpedRow [F.nan, F.fin 1] [F.fin 5, F.fin 1] 0 (F.pinf : F Rounding.exact) 1
      ([[F.nan, F.fin 0], [F.fin 0, inf]], false) = .ok (.next ([[F.nan, F.fin 0], [F.fin 0, F.fin 0]], false)) := by
    simp [warpedRow, len, forInt, forIntGo, hcell, DataT.gt]
  have hdrop : eucInormDtw (F.pinf : F Rounding.exact) 2 2 = F.pinf := by
    simp [eucInormDtw, mul_pinf]
  unfold warpedDistance
  simp only [len, List.length_cons, List.length_nil]
  norm_num
  rw [hband, Res.bind_ok]
  unfold warpedDistanceBand
  simp [len, forInt_of_le, mset, mget, vget, vset, tsGet, forBrk, forBrkGo, heuc, hdrop, hrow]
  simp [eucNormDtw, div_fin, sqrt_fin]

/-- A case for all of them: data with a not-a-number and an infinity, grouped with threshold 1, a query with an infinity
in it (answered or not), then one that ends in not-a-number. -/
example (io : NumIO (F Rounding.exact)) (stod : Text → Stod (F Rounding.exact)) :
    let R : List (List (F Rounding.exact)) := [[F.fin 0, F.nan, F.fin 2], [F.pinf, F.fin 5, F.fin 6]]
    let env : Env (F Rounding.exact) := ⟨F.fin 1, F.nan, io, stod, fun _ => false⟩
    let s : GSet (F Rounding.exact) := ⟨⟨some R.flatten, 0, 3, 2, "", false⟩, none, none⟩
    ∃ n s₁, s.groupAllLengths env "euclidean_dtw" (F.fin 1) = (.ok n, s₁) ∧ SearchedAny s 3 s₁ ∧
      s₁.getBestMatch env (Series.mk' [F.pinf, F.nan]) = (.ub "null dereference", s₁) := by
  intro R env s
  have hR : s.ds.Holds 3 R := by
    refine ⟨?_, rfl, rfl, [], by simp [s]⟩
    intro r hr
    simp only [R, List.mem_cons, List.not_mem_nil, or_false] at hr
    rcases hr with rfl | rfl <;> rfl
  have hf : FitEnv env 3 1 := ⟨rfl, ratioOk_of (by norm_num) (by norm_num)⟩
  obtain ⟨n, s₁, h⟩ := C53_grouping_completes_partial env s 3 R hR
    (fun l h1 h2 => ⟨_, band_ok (hf.fits l h2) h1⟩) "euclidean_dtw" (Or.inr rfl) (F.fin 1) (gt_inf_half 1)
    (Or.inr fun _ => rfl)
  have hs : SearchedAny s 3 s₁ := .grouped hf (gt_inf_half 1) h
  exact ⟨n, s₁, h, hs, C53_nan_query_counterexample s s₁ 3 R hR (by simp [R]) hs env 1 hf [F.pinf] (by simp) (by simp)⟩

/-- A case for the grouping counterexample. -/
example (env : Env (F Rounding.exact)) : ∃ why, (GSet.groupAllLengths env "euclidean" F.pinf
    ⟨⟨some [F.fin 1, F.fin 2, F.fin 3, F.nan], 0, 2, 2, "", false⟩, none, none⟩).1 = .ub why :=
  C53_nan_grouping_counterexample env _ 2 [[F.fin 1, F.fin 2], [F.fin 3, F.nan]]
    ⟨by simp, rfl, rfl, [], rfl⟩ (by norm_num) (by simp) 1 (by norm_num) rfl _ (Or.inr rfl)

/-- A case for the distances: not-a-number against infinity. -/
example : ∃ x, warpedDistance (F.fin 1 : F Rounding.exact) [F.nan, F.fin 1] [F.pinf, F.ninf, F.nan] F.nan = .ok x :=
  (C53_distances_defined F.nan (F.fin 1) (Series.mk' [F.nan, F.fin 1]) (Series.mk' [F.pinf, F.ninf, F.nan]) 2 3 _
    (by norm_num) (by norm_num) (whole_mk _) (whole_mk _)
    (band_ok (ratioOk_of (L := 3) (by norm_num) (by norm_num) 3 (by norm_num)) (by norm_num)) F.nan).1

end Onex
