import Verif.Proofs.Fresh
import Verif.Props.Match
import Verif.Props.Pairwise

/-!
# A history in which a stale envelope hides the best match (for C40)
-/

namespace Onex
open DataT Spec

local notation "X" => F Rounding.exact

theorem band0 (n : ℕ) (h : 1 ≤ n) : calculateWarpingBandSize (F.fin 0 : X) (n : Int) = .ok 0 := by
  rw [band_ok ⟨le_refl _, by simp⟩ h]
  simp [bandOf_exact, Spec.bandSize]

theorem env0 (junk : X) (x y : ℝ) : generateKeoghLU junk (fins [x, y]) 0 = .ok (fins [x, y], fins [x, y]) := by
  obtain ⟨lo, up, h1, h2⟩ := generateKeoghLU_spec junk [x, y] (by simp) 0
  have e0 : ((0 : ℕ) : Int) = 0 := rfl
  rw [e0] at h1
  rw [h1]
  have w0 : window [x, y] 0 0 = {x} := by
    ext z
    constructor
    · rintro ⟨j, hj, h, _⟩
      have : j = 0 := by omega
      subst this
      simpa using hj.symm
    · rintro rfl
      exact ⟨0, rfl, by omega, by omega⟩
  have w1 : window [x, y] 0 1 = {y} := by
    ext z
    constructor
    · rintro ⟨j, hj, h, h'⟩
      have : j = 1 := by omega
      subst this
      simpa using hj.symm
    · rintro rfl
      exact ⟨1, rfl, by omega, by omega⟩
  have a0 := h2.low 0 (by simp)
  have a1 := h2.low 1 (by simp)
  have b0 := h2.upp 0 (by simp)
  have b1 := h2.upp 1 (by simp)
  rw [w0] at a0 b0
  rw [w1] at a1 b1
  have a0 := a0.1
  have a1 := a1.1
  have b0 := b0.1
  have b1 := b1.1
  have l1 := h2.lenLo
  have l2 := h2.lenUp
  simp only [Set.mem_singleton_iff] at a0 a1 b0 b1
  match lo, l1, up, l2 with
  | [p, q], _, [r, s], _ =>
    simp at a0 a1 b0 b1
    subst a0 a1 b0 b1
    rfl

/-- The envelope of a series of two points for band 0. -/
def E (x y : ℝ) : Cache X := { band := 0, lower := fins [x, y], upper := fins [x, y] }

theorem gk_fresh (junk : X) (x y : ℝ) : getKeogh junk ⟨fins [x, y], none⟩ 0 =
    .ok ((fins [x, y], fins [x, y]), ⟨fins [x, y], some (E x y)⟩) := by
  unfold getKeogh
  dsimp only
  rw [env0]
  rfl

theorem gk_cached (junk : X) (v : List X) (x y : ℝ) : getKeogh junk ⟨v, some (E x y)⟩ 0 =
    .ok ((fins [x, y], fins [x, y]), ⟨v, some (E x y)⟩) := by
  unfold getKeogh
  dsimp only
  rw [if_pos (show (E x y).band = 0 from rfl)]
  rfl

/-- The envelope cache of `[x, y]` is empty or right. -/
def Ca (x y : ℝ) (c : Option (Cache X)) : Prop := c = none ∨ c = some (E x y)

theorem gk (junk : X) (x y : ℝ) (c : Option (Cache X)) (h : Ca x y c) : getKeogh junk ⟨fins [x, y], c⟩ 0 =
    .ok ((fins [x, y], fins [x, y]), ⟨fins [x, y], some (E x y)⟩) := by
  rcases h with rfl | rfl
  · exact gk_fresh junk x y
  · exact gk_cached junk _ x y

theorem keogh_inf (junk : X) (x y u v : ℝ) (c c' : Option (Cache X)) (h : Ca x y c) :
    ∃ t : ℝ, keoghLowerBound junk (F.fin 0) ⟨fins [x, y], c⟩ ⟨fins [u, v], c'⟩ F.pinf =
      .ok (F.fin t, ⟨fins [x, y], some (E x y)⟩) := by
  unfold keoghLowerBound
  have l2 : ∀ (p q : ℝ) c, Series.length (⟨fins [p, q], c⟩ : Series X) = 2 := fun _ _ _ => rfl
  simp only [l2]
  have b0 := band0 2 (by norm_num)
  have e2 : ((2 : ℕ) : Int) = 2 := rfl
  rw [e2] at b0
  have m2 : Max.max (2 : Int) 2 = 2 := rfl
  have m2' : Min.min (2 : Int) 2 = 2 := rfl
  rw [m2, b0]
  simp only [Res.bind_ok, gk junk x y c h, gk junk x y _ (Or.inr rfl), l2, m2, m2']
  obtain ⟨w, hw, k, _, rfl⟩ := keoghSum_spec (ρ := Rounding.exact) (n := 2) (b := [u, v]) (lo := [x, y]) (up := [x, y])
    (by simp) (by simp) (by simp)
    (mul (mul (mul F.pinf (ofInt 2)) (ofInt 2)) (mul (mul F.pinf (ofInt 2)) (ofInt 2)))
  rw [e2] at hw
  rw [hw]
  simp only [Res.bind_ok, eucNormDtw, m2]
  rw [ofInt_F, sqrt_fin _ (ksum_nonneg pen_nonneg _), div_fin _ _ (by norm_num)]
  exact ⟨_, rfl⟩

noncomputable def cd (x y u v : ℝ) : ℝ := Real.sqrt ((x - u) * (x - u) + (y - v) * (y - v)) / 4

theorem warped_two (x y u v : ℝ) :
    warpedDistance (F.fin 0) (fins [x, y]) (fins [u, v]) (F.pinf : X) = .ok (F.fin (cd x y u v)) := by
  have hr : RatioOk Rounding.exact 0 2 := ratioOk_of (le_refl _) (by norm_num) 2 (le_refl _)
  rw [warped_inf hr (by simp) (by simp)]
  have e : rOf Rounding.exact 0 [x, y] [u, v] = 0 := by
    simp [rOf, bandOf_exact, Spec.bandSize]
  rw [e, wd_fin (by simp) (Or.inl (by simp [inB])), wfin_exact]
  simp only [List.length_cons, List.length_nil]
  simp [dp, ecost, ed, inB, cd]
  norm_num

theorem cascade_inf (junk : X) (x y u v : ℝ) (c c' : Option (Cache X)) (h : Ca x y c) (h' : Ca u v c') :
    cascadeDistance junk (F.fin 0) ⟨fins [x, y], c⟩ ⟨fins [u, v], c'⟩ F.pinf =
      .ok (F.fin (cd x y u v), ⟨fins [x, y], some (E x y)⟩, ⟨fins [u, v], some (E u v)⟩) := by
  obtain ⟨t, ht⟩ := keogh_inf junk x y u v c c' h
  obtain ⟨t', ht'⟩ := keogh_inf junk u v x y c' (some (E x y)) h'
  have g : ∀ t : ℝ, gt (F.fin t : X) F.pinf = false := fun t => by
    rw [Bool.eq_false_iff]
    exact fun hh => (lt_iff _ _).mp hh
  unfold cascadeDistance crossKeoghLowerBound
  rw [ht]
  simp only [Res.bind_ok, g, ht', Bool.false_eq_true, if_false, Res.pure_eq, max_fin, warped_two]

/-- A series whose envelope is taken to be `[30, 40]` is discarded for a query starting far below 30. -/
theorem cascade_pruned (junk : X) (p q u v d : ℝ) (c c' : Option (Cache X))
    (h : getKeogh junk ⟨fins [p, q], c⟩ 0 = .ok ((fins [30, 40], fins [30, 40]), ⟨fins [p, q], some (E 30 40)⟩))
    (hd : 0 < d) (hu : 4 * d < 30 - u) :
    cascadeDistance junk (F.fin 0) ⟨fins [p, q], c⟩ ⟨fins [u, v], c'⟩ (F.fin d) =
      .ok (F.pinf, ⟨fins [p, q], some (E 30 40)⟩, ⟨fins [u, v], c'⟩) := by
  have l2 : ∀ (p q : ℝ) c, Series.length (⟨fins [p, q], c⟩ : Series X) = 2 := fun _ _ _ => rfl
  have b0 := band0 2 (by norm_num)
  have e2 : ((2 : ℕ) : Int) = 2 := rfl
  rw [e2] at b0
  have m2 : Max.max (2 : Int) 2 = 2 := rfl
  have m2' : Min.min (2 : Int) 2 = 2 := rfl
  have hs : keoghSum (fins [u, v]) (fins [30, 40]) (fins [30, 40]) 2
      (mul (mul (mul (F.fin d : X) (ofInt 2)) (ofInt 2)) (mul (mul (F.fin d) (ofInt 2)) (ofInt 2))) =
      .ok (F.fin ((u - 30) * (u - 30))) := by
    have a1 : lt (F.fin 0 : X) (F.fin (d * 2 * 2 * (d * 2 * 2))) = true := by
      rw [lt_iff]
      show (0 : ℝ) < _
      positivity
    have a2 : lt (F.fin (0 + (u - 30) * (u - 30)) : X) (F.fin (d * 2 * 2 * (d * 2 * 2))) = false := by
      rw [Bool.eq_false_iff]
      intro hh
      have : 0 + (u - 30) * (u - 30) < d * 2 * 2 * (d * 2 * 2) := (lt_iff _ _).mp hh
      nlinarith
    have a3 : lt (F.fin 30 : X) (F.fin u) = false := by
      rw [Bool.eq_false_iff]
      intro hh
      have : 30 < u := (lt_iff _ _).mp hh
      linarith
    have a4 : lt (F.fin u : X) (F.fin 30) = true := by
      rw [lt_iff]
      show u < 30
      linarith
    have xf : ∀ z, Rounding.exact.f z = z := fun _ => rfl
    unfold keoghSum forBrk
    show forBrkGo _ 2 0 _ = _
    simp only [forBrkGo, zero_F, ofInt_F, mul_fin, xf, Int.cast_ofNat, a1, tsGet, vget, fins, len, gt, List.map,
      List.length_cons, List.length_nil, euc]
    simp only [Int.toNat_zero, if_true, Res.pure_eq]
    simp
    rw [if_neg (by linarith), if_pos (by linarith)]
    have a5 : ¬ (u - 30) * (u - 30) < d * 2 * 2 * (d * 2 * 2) := by nlinarith
    simp [a5]
  have hk : keoghLowerBound junk (F.fin 0) ⟨fins [p, q], c⟩ ⟨fins [u, v], c'⟩ (F.fin d) =
      .ok (F.fin ((30 - u) / 4), ⟨fins [p, q], some (E 30 40)⟩) := by
    unfold keoghLowerBound
    simp only [l2]
    rw [m2, b0]
    simp only [Res.bind_ok, h, gk_cached, l2, m2, m2', hs]
    simp only [eucNormDtw, m2]
    rw [ofInt_F, sqrt_fin _ (mul_self_nonneg _), div_fin _ _ (by norm_num)]
    have : Real.sqrt ((u - 30) * (u - 30)) = 30 - u := by
      rw [Real.sqrt_mul_self_eq_abs, abs_of_neg (by linarith)]
      ring
    simp only [Rounding.exact, id, this]
    norm_num
  have g1 : gt (F.fin ((30 - u) / 4) : X) (F.fin d) = true := by
    unfold gt
    rw [lt_iff]
    show d < (30 - u) / 4
    linarith
  have g2 : gt (F.pinf : X) (F.fin d) = true := by
    unfold gt
    rw [lt_iff]
    trivial
  unfold cascadeDistance crossKeoghLowerBound
  rw [hk]
  simp only [Res.bind_ok, g1, if_true, Res.pure_eq, inf_F, g2]

/-- A loaded dataset of two series `a b` and `c d`. -/
def DD (g : Nat) (a b c d : ℝ) (nm : Bool) : Dataset X :=
  { data := some (fins [a, b, c, d]), gen := g, itemLength := 2, itemCount := 2, filePath := "", normalized := nm }

def vw (g : Nat) (i : Int) : View := { gen := g, base := i * 2, index := i, start := 0, stop := 2 }

/-- The group of series `i` alone. -/
def gr (g : Nat) (i : Int) (c : Option (Cache X)) : Group X :=
  { groupIndex := i, last := (i, 0), memberLength := 2, subCount := 1, count := 1,
    centroid := { src := .view (vw g i), cache := c } }

def mmap : List Membership := [⟨(-1, -1), 0⟩, ⟨(-1, -1), 1⟩]

def space (g : Nat) (c0 c1 : Option (Cache X)) : GlobalSpace X :=
  { locals := [none, none, some { length := 2, subCount := 1, groups := [gr g 0 c0, gr g 1 c1], memberMap := mmap }],
    distanceName := "euclidean" }

theorem get0 (g : Nat) (a b c d : ℝ) (nm : Bool) : (DD g a b c d nm).getTimeSeries 0 0 (0 + 2) = .ok (vw g 0) := by
  simp [Dataset.getTimeSeries, DD, vw]

theorem get1 (g : Nat) (a b c d : ℝ) (nm : Bool) : (DD g a b c d nm).getTimeSeries 1 0 (0 + 2) = .ok (vw g 1) := by
  simp [Dataset.getTimeSeries, DD, vw]

theorem res0 (g : Nat) (a b c d : ℝ) (nm : Bool) : (DD g a b c d nm).resolve (vw g 0) = .ok (fins [a, b]) := by
  simp [Dataset.resolve, Dataset.buf, DD, vw, fins, len]

theorem res1 (g : Nat) (a b c d : ℝ) (nm : Bool) : (DD g a b c d nm).resolve (vw g 1) = .ok (fins [c, d]) := by
  simp [Dataset.resolve, Dataset.buf, DD, vw, fins, len]

theorem place0 (dist : Dist X) (g : Nat) (a b c d : ℝ) (nm : Bool) (m : List Membership) (hm : m.length = 2) :
    placeOne (DD g a b c d nm) dist (F.fin 0) 0 0 { length := 2, subCount := 1, groups := [], memberMap := m } =
      .ok { length := 2, subCount := 1, groups := [gr g 0 none], memberMap := m.set 0 ⟨(-1, -1), 0⟩ } := by
  unfold placeOne
  simp only [get0, res0, Res.bind_ok, nearest, forInt_of_le (show len ([] : List (Group X)) ≤ 0 by simp [len])]
  simp [len, Group.setCentroid, Group.new, DD, Dataset.getTimeSeries, vget, Group.addMember, vset, hm, gr, vw]

theorem pair_far (x y : ℝ) (h : 0 < x) : ∃ t : ℝ, 0 < t ∧
    pairwiseDistance (fins [0, 0]) (fins [x, y]) (F.pinf : X) = .ok (F.fin t) := by
  refine ⟨_, ?_, C01_pairwise_is_rms [0, 0] [x, y] rfl (by simp)⟩
  unfold Spec.rms
  rw [Real.sqrt_pos]
  have : 0 < x ^ 2 + y ^ 2 := by positivity
  simp [Finset.sum_range_succ]
  linarith

theorem place1 (g : Nat) (x y : ℝ) (hx : 0 < x) (nm : Bool) (m : List Membership) (hm : m.length = 2) :
    placeOne (DD g 0 0 x y nm) (DistName.fn (F.fin 0) .euclidean) (F.fin 0) 1 0
      { length := 2, subCount := 1, groups := [gr g 0 none], memberMap := m } =
      .ok { length := 2, subCount := 1, groups := [gr g 0 none, gr g 1 none], memberMap := m.set 1 ⟨(-1, -1), 1⟩ } := by
  obtain ⟨t, t0, ht⟩ := pair_far x y hx
  have l1 : lt (F.fin t : X) F.pinf = true := lt_fin_pinf _
  have g1 : gt (F.fin t : X) (div (F.fin 0) (ofInt 2)) = true := by
    rw [ofInt_F, div_fin _ _ (by norm_num)]
    unfold gt
    rw [lt_iff]
    show (0 : ℝ) / _ < t
    simpa using t0
  unfold placeOne
  simp only [get1, res1, Res.bind_ok, nearest]
  rw [forInt_succ (by simp [len])]
  have hn : nearestStep (DD g 0 0 x y nm) (DistName.fn (F.fin 0) .euclidean) 0
      ⟨[gr g 0 none], Series.mk' (fins [x, y]), DataT.inf, none⟩ =
      .ok ⟨[gr g 0 none], Series.mk' (fins [x, y]), F.fin t, some 0⟩ := by
    simp [nearestStep, vget, Group.distanceFromCentroid, gr, Cent.resolve, res0, DistName.fn, Series.mk', inf_F, ht, vset, len, l1]
  rw [hn]
  simp only [Res.bind_ok]
  rw [forInt_of_le (by simp [len])]
  simp only [Res.bind_ok, g1]
  simp [len, Group.setCentroid, Group.new, DD, Dataset.getTimeSeries, vget, Group.addMember, vset, hm, gr, vw]

theorem group_eq (env : Env X) (hr : env.ratio = F.fin 0) (hl : ∀ i, env.doLog i = false) (g : Nat) (x y : ℝ) (hx : 0 < x) (nm : Bool)
    (th : Option X) :
    GSet.groupAllLengths env "euclidean" (F.fin 0) ⟨DD g 0 0 x y nm, none, th⟩ =
      (.ok 2, ⟨DD g 0 0 x y nm, some (space g none none), some (F.fin 0)⟩) := by
  have h : LocalSpace.generateGroups (DD g 0 0 x y nm) (DistName.fn (F.fin 0) .euclidean) (F.fin 0) false
      { length := 2, subCount := 1, groups := [], memberMap := List.replicate 2 Membership.default } =
      .ok { length := 2, subCount := 1, groups := [gr g 0 none, gr g 1 none], memberMap := mmap } := by
    unfold LocalSpace.generateGroups
    simp only
    rw [forInt_succ (by norm_num), forInt_succ (show (0 : Int) < (DD g 0 0 x y nm).itemCount by simp [DD])]
    simp only [logProgress, Bool.false_eq_true, false_and, if_false, Res.bind_ok]
    rw [place0 _ _ _ _ _ _ _ _ (by simp)]
    simp only [Res.bind_ok]
    rw [forInt_succ (show (0 + 1 : Int) < (DD g 0 0 x y nm).itemCount by simp [DD])]
    have e : (0 + 1 : Int) = 1 := rfl
    simp only [e]
    rw [place1 g x y hx nm _ (by simp)]
    simp only [Res.bind_ok]
    rw [forInt_of_le (by simp [DD])]
    simp only [Res.bind_ok]
    rw [forInt_of_le (by simp)]
    rfl
  have hnew : LocalSpace.new (DD g 0 0 x y nm) 2 =
      .ok { length := 2, subCount := 1, groups := [], memberMap := List.replicate 2 Membership.default } := by
    simp [LocalSpace.new, DD]
  unfold GSet.groupAllLengths
  rw [if_neg (by simp [DD, Dataset.isLoaded])]
  simp only [GSet.reset, GlobalSpace.group, getDistance, if_true, hr]
  rw [if_neg (by simp [DD])]
  rw [forInt_succ (by simp [DD])]
  simp only [hnew, hl, Res.bind_ok, h]
  have e : (DD g 0 0 x y nm).itemLength = 2 := rfl
  simp only [e]
  rw [show (2 + 1 : Int).toNat = 3 from rfl]
  simp [vset, forInt, forIntGo, LocalSpace.getNumberOfGroups, len, space, List.replicate]

theorem order0 : generateTraverseOrder (F.fin 0 : X) 2 2 = .ok [2] := by
  have b2 := band0 2 (by norm_num)
  simp only [Nat.cast_ofNat] at b2
  simp [generateTraverseOrder, traverseLoop, traverseStep, b2]

theorem search_eq (junk : X) (g : Nat) (a b p q u v t : ℝ) (nm : Bool) (c0 c1 : Option (Cache X)) (h0 : Ca a b c0)
    (h1 : getKeogh junk ⟨fins [p, q], c1⟩ 0 = .ok ((fins [30, 40], fins [30, 40]), ⟨fins [p, q], some (E 30 40)⟩))
    (ht : cd a b u v = t) (hd : 0 < t) (hu : 4 * t < 30 - u) :
    GlobalSpace.getBestMatch junk (F.fin 0) (DD g a b p q nm) (space g c0 c1) (Series.mk' (fins [u, v])) =
      .ok (⟨vw g 0, F.fin t⟩, space g (some (E a b)) (some (E 30 40))) := by
  have n0 : nearestStep (DD g a b p q nm) (cascadeDistance junk (F.fin 0)) 0
      ⟨[gr g 0 c0, gr g 1 c1], ⟨fins [u, v], none⟩, F.pinf, none⟩ =
      .ok ⟨[gr g 0 (some (E a b)), gr g 1 c1], ⟨fins [u, v], some (E u v)⟩, F.fin t, some 0⟩ := by
    have l1 : lt (F.fin t : X) F.pinf = true := lt_fin_pinf _
    simp [nearestStep, vget, Group.distanceFromCentroid, gr, Cent.resolve, res0, vset, len, l1,
      cascade_inf junk a b u v c0 none h0 (Or.inl rfl), ht]
  have n1 : nearestStep (DD g a b p q nm) (cascadeDistance junk (F.fin 0)) 1
      ⟨[gr g 0 (some (E a b)), gr g 1 c1], ⟨fins [u, v], some (E u v)⟩, F.fin t, some 0⟩ =
      .ok ⟨[gr g 0 (some (E a b)), gr g 1 (some (E 30 40))], ⟨fins [u, v], some (E u v)⟩, F.fin t, some 0⟩ := by
    have l1 : lt (F.pinf : X) (F.fin t) = false := by
      rw [Bool.eq_false_iff]
      exact fun hh => (lt_iff _ _).mp hh
    simp [nearestStep, vget, Group.distanceFromCentroid, gr, Cent.resolve, res1, vset, len, l1,
      cascade_pruned junk p q u v t c1 (some (E u v)) h1 hd hu]
  have hnear : nearest (DD g a b p q nm) (cascadeDistance junk (F.fin 0)) [gr g 0 c0, gr g 1 c1] ⟨fins [u, v], none⟩ F.pinf =
      .ok ⟨[gr g 0 (some (E a b)), gr g 1 (some (E 30 40))], ⟨fins [u, v], some (E u v)⟩, F.fin t, some 0⟩ := by
    unfold nearest
    rw [forInt_succ (by simp [len]), n0, Res.bind_ok, forInt_succ (by simp [len])]
    have e : (0 + 1 : Int) = 1 := rfl
    rw [e, n1, Res.bind_ok, forInt_of_le (by simp [len])]
  have hbm : (gr g 0 (some (E a b))).getBestMatch (DD g a b p q nm) mmap ⟨fins [u, v], some (E u v)⟩ (cascadeDistance junk (F.fin 0)) =
      .ok ⟨vw g 0, F.fin t⟩ := by
    have hc : cd u v a b = t := by
      rw [← ht]
      unfold cd
      congr 2
      ring
    have l1 : lt (F.fin t : X) F.pinf = true := lt_fin_pinf _
    unfold Group.getBestMatch
    have e3 : mmap.length + 1 = 3 := rfl
    rw [e3]
    unfold Group.bestMatchLoop
    rw [if_neg (by simp [gr])]
    have g0 := get0 g a b p q nm
    have r0 := res0 g a b p q nm
    simp only [gr, g0, r0, Res.bind_ok, Series.mk', inf_F, cascade_inf junk u v a b (some (E u v)) none (Or.inr rfl) (Or.inl rfl), hc, l1, if_true]
    simp only [mmap]
    simp [vget]
    unfold Group.bestMatchLoop
    simp
    have g0' : (DD g a b p q nm).getTimeSeries 0 0 2 = .ok (vw g 0) := g0
    rw [g0']
    rfl
  unfold GlobalSpace.getBestMatch
  have lq : (Series.mk' (fins [u, v]) : Series X).length = 2 := rfl
  rw [lq, if_neg (by norm_num)]
  have ll : len (space g c0 c1).locals - 1 = 2 := rfl
  rw [ll, order0]
  simp only [Res.bind_ok, searchLoop, searchStep]
  have hl2 : vget (space g c0 c1).locals 2 =
      .ok (some { length := 2, subCount := 1, groups := [gr g 0 c0, gr g 1 c1], memberMap := mmap }) := rfl
  have l1 : lt (F.fin t : X) F.pinf = true := lt_fin_pinf _
  simp only [hl2, Res.bind_ok, LocalSpace.getBestGroup, inf_F, Series.mk', hnear, Res.pure_eq]
  simp [vset, space, l1, vget, hbm]

theorem norm_eq (g : Nat) : (DD g 0 0 30 40 false).normalize = (.ok (F.fin 0, F.fin 40), DD g 0 0 (3 / 4) 1 true) := by
  have d : ∀ x : ℝ, div (F.fin x : X) (F.fin 40) = F.fin (x / 40) := by
    intro x
    rw [div_fin _ _ (by norm_num)]
    rfl
  have n1 : ¬ (40 : ℝ) < 30 := by norm_num
  have n2 : ¬ (30 : ℝ) < 0 := by norm_num
  have e1 : DataT.eq (F.fin 40 : X) (F.fin 0) = false := by
    rw [Bool.eq_false_iff]
    simp
  simp [Dataset.normalize, DD, Dataset.buf, forInt, forIntGo, scanRow, toUnsigned, forInt2, vget, fins, gt,
    inf_F, ninf_F, mapRows, vset, len, n1, n2, e1]
  rw [d, d, d]
  norm_num

theorem cd_a : cd 0 0 0 1 = 1 / 4 := by
  simp [cd]

theorem cd_b : cd 0 0 (3 / 4) 1 = 5 / 16 := by
  unfold cd
  rw [show ((0 : ℝ) - 3 / 4) * (0 - 3 / 4) + (0 - 1) * (0 - 1) = (5 / 4) ^ 2 by norm_num, Real.sqrt_sq (by norm_num)]
  norm_num

end Onex
