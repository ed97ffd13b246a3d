import Verif.Proofs.NanQuery
import Verif.Props.Grouping

/-!
# Grouping and searching data that contain not-a-number
-/

namespace Onex
open DataT Spec

variable {ρ : Rounding}

theorem add_nan_left (x : F ρ) : add F.nan x = F.nan := by
  cases x <;> rfl

/-- The pairwise distance to a series that contains not-a-number is dead. -/
theorem pairwise_dead {a b : List (F ρ)} (h : a.length = b.length) {p : Nat} (hp : b[p]? = some F.nan)
    (dropout : F ρ) : (pairwiseDistance a b dropout).Ensures Dead := by
  have hpb : p < b.length := (List.getElem?_eq_some_iff.mp hp).1
  unfold pairwiseDistance
  rw [if_neg (by simp [len, h])]
  simp only
  refine Res.Ensures.bind (forBrk_ensures (fun i (s : F ρ × Bool) => s.2 = false ∧ ((p : Int) < i → s.1 = F.nan))
    (fun s : F ρ × Bool => s.2 = true) (by simp [len]) ⟨rfl, by intro h; omega⟩ ?_) ?_
  · rintro i ⟨total, dropped⟩ hi1 hi2 ⟨s1, s2⟩
    simp only at s1 s2
    simp only [len] at hi2
    obtain ⟨x, hx⟩ := tsGet_defined (x := a) (i := i) (by omega) (by simp only [len]; omega)
    obtain ⟨y, hy⟩ := tsGet_defined (x := b) (i := i) (by omega) (by simp only [len]; omega)
    rw [hx, Res.bind_ok, hy, Res.bind_ok]
    split
    · exact ⟨_, rfl, rfl⟩
    · refine ⟨_, rfl, s1, ?_⟩
      intro hlt
      by_cases e : i = p
      · subst e
        have : tsGet b (p : Int) = .ok F.nan := by
          unfold tsGet
          rw [if_neg (by simp only [len]; omega)]
          exact vget_of_getElem? (by omega) (by simpa using hp)
        rw [this] at hy
        cases hy
        rw [euc_nan_right, add_nan_right]
      · simp only
        rw [s2 (by omega), add_nan_left]
  · rintro ⟨total, dropped⟩ hs
    rcases hs with ⟨s1, s2⟩ | s1
    · simp only at s1 s2
      rw [s2 (by simp only [len]; omega), s1]
      exact ⟨_, rfl, Or.inl rfl⟩
    · simp only at s1
      rw [s1]
      exact ⟨_, rfl, Or.inr rfl⟩

/-- The second sub-series contains not-a-number and infinity is not above half the threshold: placing it reads
an index that was never set. -/
theorem place_two_ub {ds : Dataset (F ρ)} {L : Nat} {R : List (List (F ρ))} (hR : ds.Holds L R) (h2 : 2 ≤ R.length)
    (hL : 2 ≤ L) {p : Nat} (hp : p < 2) (hnan : (R.getD 1 [])[p]? = some F.nan) {th : F ρ}
    (hth : gt (inf : F ρ) (div th (ofInt 2)) = false) (ratio : F ρ) {ls : LocalSpace (F ρ)}
    (hls : LocalSpace.new ds 2 = .ok ls) (doLog : Bool) :
    ∃ why, ls.generateGroups ds (DistName.euclidean.fn ratio) th doLog = .ub why := by
  obtain ⟨i1, i2, i3⟩ := spaceInv_new hls
  have hcount := hR.itemCount
  have hlen := hR.itemLength
  have hsub := i1.subCount
  have c0 : IsSub ds.itemCount ds.itemLength 2 (0, 0) := ⟨⟨le_refl _, by simp only; omega⟩, le_refl _, by simp only; omega⟩
  have c1 : IsSub ds.itemCount ds.itemLength 2 (1, 0) := ⟨⟨by simp, by simp only; omega⟩, le_refl _, by simp only; omega⟩
  obtain ⟨r0, l0⟩ := resolve_any hR (by norm_num) c0
  obtain ⟨r1, l1⟩ := resolve_any hR (by norm_num) c1
  have hlog : ∀ total, logProgress doLog total = .ok () ∨ ∃ why, logProgress doLog total = .ub why := by
    intro total
    unfold logProgress
    split
    · exact Or.inr ⟨_, rfl⟩
    · exact Or.inl rfl
  have n0 : nearest ds (DistName.euclidean.fn ratio) ls.groups (Series.mk' (subVals R 2 (0, 0))) inf =
      .ok { groups := [], query := Series.mk' (subVals R 2 (0, 0)), best := inf, bestIdx := none } := by
    unfold nearest
    rw [i3]
    exact forInt_of_le (by simp [len])
  obtain ⟨ls', g', e1, e2, e3, e4, e5⟩ := placeOne_new (by norm_num) i1 i2 c0 (by simp) r0 n0 (th := th) (by simp [len])
  have hfit : ∀ g ∈ ls'.groups, CentFit ds 2 g := by
    rw [e4]
    intro g hg
    simp only [List.nil_append, List.mem_singleton] at hg
    subst hg
    refine ⟨Series.mk' (subVals R 2 (0, 0)), ?_, ?_⟩
    · unfold Cent.resolve
      rw [e5]
      simp only [r0, Res.bind_ok]
      rfl
    · have := whole_mk (subVals R 2 (0, 0))
      rwa [l0] at this
  have hnan' : (subVals R 2 (1, 0))[p]? = some F.nan := by
    unfold subVals
    simp only [Int.toNat_one, Int.toNat_zero, List.drop_zero]
    rw [List.getElem?_take, if_pos (by simpa using hp)]
    exact hnan
  have hd : DistDefined (DistName.euclidean.fn ratio : Dist (F ρ)) 2 2 := by
    intro a b dropout ha hb
    obtain ⟨v, hv⟩ := pairwise_defined (a := a.vals) (b := b.vals) (by rw [ha.len, hb.len]) dropout
    simp only [DistName.fn, hv, Res.bind_ok]
    exact ⟨_, rfl, rfl, rfl, ha, hb⟩
  obtain ⟨t, ht, t1, t2⟩ := nearest_dead hd (vals := subVals R 2 (1, 0)) (by
      intro a b dropout ha hb hv
      obtain ⟨v, hv', hdead⟩ := pairwise_dead (a := a.vals) (b := b.vals) (by rw [ha.len, hb.len])
        (by rw [hv]; exact hnan') dropout
      simp only [DistName.fn, hv', Res.bind_ok]
      exact ⟨_, rfl, hdead⟩) hfit (query := Series.mk' (subVals R 2 (1, 0)))
    (by have := whole_mk (subVals R 2 (1, 0)); rwa [l1] at this) rfl inf
  obtain ⟨hsame, _⟩ := nearest_shape _ _ _ _ _ _ ht
  have hlen1 : len t.groups = 1 := by
    simp only [len, hsame.1, e4]
    simp
  have hsecond : placeOne ds (DistName.euclidean.fn ratio) th 1 0 ls' = .ub "uninitialised index" := by
    have g1 := getTimeSeries_sub (ds := ds) (by norm_num) c1
    simp only at g1
    unfold placeOne
    rw [e2.length, g1, Res.bind_ok, r1, Res.bind_ok, ht, Res.bind_ok]
    simp only
    rw [if_neg (by rw [t2, hth, hlen1]; simp)]
    simp only [Res.pure_eq, Res.bind_ok, t1]
  simp only at e1
  unfold LocalSpace.generateGroups
  simp only
  rw [forInt_succ (by omega), forInt_succ (by omega)]
  rcases hlog (ls.subCount * ds.itemCount) with hlg | ⟨why, hlg⟩
  · rw [hlg, Res.bind_ok, e1, Res.bind_ok, forInt_succ (by omega), Res.bind_ok]
    rw [show (0 : Int) + 1 = 1 by rfl, hsecond]
    exact ⟨_, rfl⟩
  · rw [hlg]
    exact ⟨why, rfl⟩

/-- A completed grouping of data of any values can be searched. -/
theorem grouped_searchAny {env : Env (F ρ)} {s s' : GSet (F ρ)} {L : Nat} {R : List (List (F ρ))}
    (hR : s.ds.Holds L R) {ratio : ℝ} (hratio : env.ratio = F.fin ratio) (hfit : ∀ l ≤ L, RatioOk ρ ratio l)
    {name : String} {th : F ρ} (hth : gt (inf : F ρ) (div th (ofInt 2)) = true) {n : Int}
    (h : s.groupAllLengths env name th = (.ok n, s')) :
    s'.ds = s.ds ∧ ∃ gs, s'.groups = some gs ∧ SearchAny s.ds L gs.locals := by
  obtain ⟨a1, a2, gs, dn, a3, a4, a5, a6⟩ := groupAllLengths_ok h
  refine ⟨a1, gs, a3, by rw [a6.size, hR.itemLength], ?_⟩
  intro l h1 h2
  obtain ⟨ls, b1, b2⟩ := a6.at_ l h1 (by rw [hR.itemLength]; exact h2)
  unfold groupsAt at b1
  obtain ⟨ls0, b3, b4⟩ := Res.bind_eq_ok.mp b1
  have hd : DistDefined (dn.fn env.ratio) l.toNat l.toNat :=
    defined_named dn ⟨_, by rw [hratio]; exact band_ok (hfit _ (by omega)) (by omega)⟩ (by omega)
  obtain ⟨ls1, c1, M, hi, _⟩ := generate_any hR (by omega : 1 ≤ l) hd hth false b3 (by simp [logProgress])
  rw [b4] at c1
  cases c1
  exact ⟨_, M, b2, hi.space, hi.cents, hi.full⟩

/-- Half a finite threshold is below infinity. -/
theorem gt_inf_half (st : ℝ) : gt (inf : F ρ) (div (F.fin st) (ofInt 2)) = true := by
  rw [ofInt_F, div_fin _ _ (by norm_num)]
  exact lt_fin_pinf _

end Onex
