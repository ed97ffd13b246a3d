import Verif.Proofs.GroupCount

/-!
# C68: how many groups
-/

namespace Onex
open DataT Spec

/-- C68: grouping returns the number of all groups, over the lengths from 2 to that of the series; whatever the numbers and the rounding. -/
theorem C68_total {α : Type} [DataT α] (env : Env α) (name : String) (th : α) (s s' : GSet α) (n : Int) (L : ℕ) (R : List (List α)) (hR : s.ds.Holds L R)
    (h : s.groupAllLengths env name th = (.ok n, s')) :
    ∃ K : ℕ → ℕ, (∀ l : ℕ, 2 ≤ l → l ≤ L → GroupCount s' l (K l)) ∧ n = ((∑ l ∈ Finset.Icc 2 L, K l : ℕ) : Int) := by
  have hc : 0 ≤ s.ds.itemCount := by
    rw [hR.itemCount]
    omega
  obtain ⟨K, hK⟩ := count_exists hR.itemLength hc h
  exact ⟨K, hK, count_total hR.itemLength hc h hK⟩

/-- C68: there is a group of every length, and there are no more than sub-series of that length; whatever the numbers and the rounding. -/
theorem C68_bounds {α : Type} [DataT α] (env : Env α) (name : String) (th : α) (s s' : GSet α) (n : Int) (L : ℕ) (R : List (List α)) (hR : s.ds.Holds L R)
    (hne : R ≠ []) (h : s.groupAllLengths env name th = (.ok n, s')) (l k : ℕ) (hk : GroupCount s' l k) :
    2 ≤ l ∧ l ≤ L ∧ 1 ≤ k ∧ k ≤ R.length * (L - l + 1) := by
  obtain ⟨ls, hls, rfl⟩ := hk
  obtain ⟨l2, lL, M, hM⟩ := (C25_partition env name th s s' n (by rw [hR.itemCount]; omega) h).2 l ls hls
  rw [hR.itemLength] at lL
  obtain ⟨h1, h2⟩ := partition_bounds hM hR.itemCount hR.itemLength (List.length_pos_iff.mpr hne) lL
  have e : ((L : Int) - l + 1).toNat = L - l + 1 := by omega
  rw [e] at h2
  exact ⟨by omega, by omega, h1, h2⟩

section real
variable (env : Env (F Rounding.exact)) (ratio : ℝ) (hratio : env.ratio = F.fin ratio)
  (s s' : GSet (F Rounding.exact)) (L : ℕ) (R : List (List ℝ)) (hR : s.ds.Holds L (R.map fins))
  (h0 : 0 ≤ ratio) (hL : (L : ℝ) * ratio < 2147483648)

include hratio hR h0 hL

/-- C68: however the sub-series of a length are divided into parts in which no two are farther apart than half the threshold, there are no
more groups of that length than parts; for both distances. -/
theorem C68_packing {name : String} {D} (hD : EqualDist ratio name D) (st : ℝ) (n : Int) (h : s.groupAllLengths env name (F.fin st) = (.ok n, s'))
    (l k : ℕ) (l2 : 2 ≤ l) (lL : l ≤ L) (hk : GroupCount s' l k) (N : ℕ) (part : Coord → ℕ) (hN : ∀ c, IsSub R.length L l c → part c < N)
    (hp : ∀ c c', IsSub R.length L l c → IsSub R.length L l c' → part c = part c' → D (subVals R l c) (subVals R l c') ≤ st / 2) : k ≤ N := by
  obtain ⟨G, rfl, hG⟩ := count_leader env ratio hratio s s' L R hR h0 hL hD h l2 lL hk
  exact leader_packing hG part (fun c hc => hN c ((subOrder_isSub (by omega)).mp hc))
    fun c hc c' hc' => hp c c' ((subOrder_isSub (by omega)).mp hc) ((subOrder_isSub (by omega)).mp hc')

/-- C68: with at most half the threshold the Euclidean grouping has at least as many groups, of every length and altogether. -/
theorem C68_halving (s'' : GSet (F Rounding.exact)) (st st' : ℝ) (hst : st' ≤ st / 2) (n n' : Int)
    (h : s.groupAllLengths env "euclidean" (F.fin st) = (.ok n, s')) (h' : s.groupAllLengths env "euclidean" (F.fin st') = (.ok n', s'')) :
    n ≤ n' ∧ ∀ l k k' : ℕ, 2 ≤ l → l ≤ L → GroupCount s' l k → GroupCount s'' l k' → k ≤ k' := by
  have key : ∀ l k k' : ℕ, 2 ≤ l → l ≤ L → GroupCount s' l k → GroupCount s'' l k' → k ≤ k' := by
    intro l k k' l2 lL hk hk'
    obtain ⟨G, rfl, hG⟩ := count_leader env ratio hratio s s' L R hR h0 hL .euclidean h l2 lL hk
    obtain ⟨G', rfl, hG'⟩ := count_leader env ratio hratio s s'' L R hR h0 hL .euclidean h' l2 lL hk'
    refine leader_half hG hG' (fun _ _ => rms_nonneg _ _) (fun a => ?_) (fun a ha b hb => ?_) (fun a ha b hb c hc => ?_) (by linarith)
    · simp [rms]
    · exact rms_comm _ _ (by rw [sub_ok hR lL ha, sub_ok hR lL hb])
    · exact rms_triangle _ _ _ (by rw [sub_ok hR lL ha, sub_ok hR lL hb])
  refine ⟨?_, key⟩
  obtain ⟨K, hK, e⟩ := C68_total env _ _ s s' n L _ hR h
  obtain ⟨K', hK', e'⟩ := C68_total env _ _ s s'' n' L _ hR h'
  rw [e, e']
  refine Int.ofNat_le.mpr (Finset.sum_le_sum fun l hl => ?_)
  rw [Finset.mem_Icc] at hl
  exact key l _ _ hl.1 hl.2 (hK l hl.1 hl.2) (hK' l hl.1 hl.2)

/-- C68: a threshold below 0 makes every sub-series a group; for both distances. -/
theorem C68_negative {name : String} {D} (hD : EqualDist ratio name D) (st : ℝ) (hst : st < 0) (n : Int)
    (h : s.groupAllLengths env name (F.fin st) = (.ok n, s')) :
    n = ((∑ l ∈ Finset.Icc 2 L, R.length * (L - l + 1) : ℕ) : Int) ∧ ∀ l : ℕ, 2 ≤ l → l ≤ L → GroupCount s' l (R.length * (L - l + 1)) := by
  obtain ⟨K, hK, e⟩ := C68_total env _ _ s s' n L _ hR h
  have key : ∀ l : ℕ, 2 ≤ l → l ≤ L → K l = R.length * (L - l + 1) := by
    intro l l2 lL
    obtain ⟨G, e, hG⟩ := count_leader env ratio hratio s s' L R hR h0 hL hD h l2 lL (hK l l2 lL)
    rw [← e, leader_fine hG (fun _ _ => equalDist_nonneg hD _ _) (by linarith), subOrder_length]
    congr 1
    omega
  refine ⟨?_, fun l l2 lL => key l l2 lL ▸ hK l l2 lL⟩
  rw [e]
  refine congrArg _ (Finset.sum_congr rfl fun l hl => ?_)
  rw [Finset.mem_Icc] at hl
  exact key l hl.1 hl.2

/-- C68: the threshold 0 makes one group for every sequence of values that occurs, with the Euclidean distance. -/
theorem C68_zero (n : Int) (h : s.groupAllLengths env "euclidean" (F.fin 0) = (.ok n, s')) (l k : ℕ) (l2 : 2 ≤ l) (lL : l ≤ L) (hk : GroupCount s' l k) :
    k = Set.ncard {x | ∃ c, IsSub R.length L l c ∧ x = subVals R l c} := by
  obtain ⟨G, rfl, hG⟩ := count_leader env ratio hratio s s' L R hR h0 hL .euclidean h l2 lL hk
  rw [zero_div] at hG
  rw [leader_zero (subVals R l) hG]
  · congr 1
    ext x
    refine exists_congr fun c => and_congr_left fun _ => ?_
    exact subOrder_isSub (by omega)
  · intro a ha b hb
    have ea := sub_ok hR lL ha
    have eb := sub_ok hR lL hb
    rw [← rms_eq_zero _ _ (by rw [ea, eb]) (by omega)]
    exact ⟨fun h => le_antisymm h (rms_nonneg _ _), fun h => h.le⟩

/-- C68: a threshold of twice the spread of the data, or more, makes one group for every length; for both distances. -/
theorem C68_coarse {name : String} {D} (hD : EqualDist ratio name D) (hne : R ≠ []) (w st : ℝ) (hw : ∀ x ∈ R.flatten, ∀ y ∈ R.flatten, |x - y| ≤ w)
    (hst : 2 * w ≤ st) (n : Int) (h : s.groupAllLengths env name (F.fin st) = (.ok n, s')) :
    n = ((L - 1 : ℕ) : Int) ∧ ∀ l : ℕ, 2 ≤ l → l ≤ L → GroupCount s' l 1 := by
  obtain ⟨K, hK, e⟩ := C68_total env _ _ s s' n L _ hR h
  have key : ∀ l : ℕ, 2 ≤ l → l ≤ L → K l = 1 := by
    intro l l2 lL
    obtain ⟨G, e, hG⟩ := count_leader env ratio hratio s s' L R hR h0 hL hD h l2 lL (hK l l2 lL)
    rw [← e]
    refine leader_coarse hG (subOrder_ne (List.length_pos_iff.mpr hne) (by omega)) fun a ha b hb => ?_
    have ea := sub_ok hR lL ha
    have eb := sub_ok hR lL hb
    have hx : ∃ x, x ∈ subVals R l a := List.exists_mem_of_length_pos (by omega)
    obtain ⟨x, hx⟩ := hx
    have hw0 : 0 ≤ w := (abs_nonneg _).trans (hw x (subVals_mem hx) x (subVals_mem hx))
    have h1 := equalDist_le hD (a := subVals R l a) (b := subVals R l b) (by rw [ea, eb]) (by omega)
    have h2 := rms_le hw0 (a := subVals R l a) (b := subVals R l b) (by rw [ea, eb]) (by omega) fun x hx y hy => hw x (subVals_mem hx) y (subVals_mem hy)
    change D _ _ ≤ _
    linarith
  refine ⟨?_, fun l l2 lL => key l l2 lL ▸ hK l l2 lL⟩
  rw [e, Finset.sum_congr rfl fun l hl => key l (Finset.mem_Icc.mp hl).1 (Finset.mem_Icc.mp hl).2, Finset.sum_const, Nat.card_Icc, smul_eq_mul, mul_one]
  congr 1

end real

/-- C68 needs half the threshold: for the series 0 0, 10 0, 10 9 and 10 -9 the Euclidean grouping has 2 groups with the threshold 13, and 3
with the threshold 16. -/
theorem C68_monotone_counterexample (io : NumIO (F Rounding.exact)) (stod : Text → Stod (F Rounding.exact)) :
    let R : List (List ℝ) := [[0, 0], [10, 0], [10, 9], [10, -9]]
    let env : Env (F Rounding.exact) := ⟨F.fin 1, F.nan, io, stod, fun _ => false⟩
    let s : GSet (F Rounding.exact) := ⟨⟨some (R.map fins).flatten, 0, 2, 4, "", false⟩, none, none⟩
    s.ds.Holds 2 (R.map fins) ∧ (∃ s', s.groupAllLengths env "euclidean" (F.fin 13) = (.ok 2, s')) ∧
      ∃ s', s.groupAllLengths env "euclidean" (F.fin 16) = (.ok 3, s') := by
  intro R env s
  have hR : s.ds.Holds 2 (R.map fins) := by
    refine ⟨?_, rfl, rfl, [], by simp [s]⟩
    intro r hr
    simp only [R, List.map_cons, List.map_nil, List.mem_cons, List.not_mem_nil, or_false] at hr
    rcases hr with rfl | rfl | rfl | rfl <;> rfl
  have hfit := ratioOk_of (ratio := 1) (L := 2) (by norm_num) (by norm_num)
  have num : ∀ (st : ℝ) (G : List (List Coord)), Leader (fun c c' => rms (subVals R 2 c) (subVals R 2 c')) (st / 2) (subOrder 4 1) G →
      ∃ s', s.groupAllLengths env "euclidean" (F.fin st) = (.ok (G.length : Int), s') := by
    intro st G hG
    obtain ⟨n, s', h⟩ := C36_completes_partial env 1 rfl s 2 R hR hfit "euclidean" (Or.inl rfl) (F.fin st) (Or.inr fun _ => rfl)
    obtain ⟨K, hK, e⟩ := C68_total env _ _ s s' n 2 _ hR h
    obtain ⟨G', e', hG'⟩ := count_leader env 1 rfl s s' 2 R hR (by norm_num) (by norm_num) .euclidean h le_rfl le_rfl (hK 2 le_rfl le_rfl)
    have := Leader.unique hG' hG
    subst this
    refine ⟨s', ?_⟩
    rw [h, e, Finset.Icc_self, Finset.sum_singleton, e']
  have q : ∀ a b c d : ℝ, rms [a, b] [c, d] = Real.sqrt (((a - c) ^ 2 + (b - d) ^ 2) / 2) := by
    intro a b c d
    simp [rms, Finset.sum_range_succ]
  have ph : 13 / 2 < rms [0, 0] [10, 0] := by rw [q]; exact Real.lt_sqrt_of_sq_lt (by norm_num)
  have ph' : rms [0, 0] [10, 0] ≤ 8 := by rw [q]; exact Real.sqrt_le_iff.mpr (by norm_num)
  have ha : rms [10, 0] [10, 9] ≤ 13 / 2 := by rw [q]; exact Real.sqrt_le_iff.mpr (by norm_num)
  have hb : rms [10, 0] [10, -9] ≤ 13 / 2 := by rw [q]; exact Real.sqrt_le_iff.mpr (by norm_num)
  have pa : 8 < rms [0, 0] [10, 9] := by rw [q]; exact Real.lt_sqrt_of_sq_lt (by norm_num)
  have pb : 8 < rms [0, 0] [10, -9] := by rw [q]; exact Real.lt_sqrt_of_sq_lt (by norm_num)
  have ab : 8 < rms [10, 9] [10, -9] := by rw [q]; exact Real.lt_sqrt_of_sq_lt (by norm_num)
  have v0 : subVals R 2 (0, 0) = [0, 0] := by simp [subVals, R]
  have v1 : subVals R 2 (1, 0) = [10, 0] := by simp [subVals, R]
  have v2 : subVals R 2 (2, 0) = [10, 9] := by simp [subVals, R]
  have v3 : subVals R 2 (3, 0) = [10, -9] := by simp [subVals, R]
  have so : subOrder 4 1 = [(0, 0), (1, 0), (2, 0), (3, 0)] := rfl
  rw [so] at num
  refine ⟨hR, num 13 [[(0, 0)], [(3, 0), (2, 0), (1, 0)]] ?_, num 16 [[(1, 0), (0, 0)], [(2, 0)], [(3, 0)]] ?_⟩
  · have l1 : Leader (fun c c' => rms (subVals R 2 c) (subVals R 2 c')) (13 / 2) [(0, 0), (1, 0)] [[(0, 0)], [(1, 0)]] :=
      .found (cs := [(0, 0)]) (G := [[(0, 0)]]) (.found (cs := []) (G := []) .nil (by simp)) (by simpa [v0, v1] using ph)
    have l2 : Leader (fun c c' => rms (subVals R 2 c) (subVals R 2 c')) (13 / 2) [(0, 0), (1, 0), (2, 0)] [[(0, 0)], [(2, 0), (1, 0)]] := by
      refine .join (cs := [(0, 0), (1, 0)]) (G := [[(0, 0)], [(1, 0)]]) l1 1 (by simp) (1, 0) (by simp) (by simpa only [v1, v2] using ha) ?_
      intro j hj b hb
      obtain rfl | rfl : j = 0 ∨ j = 1 := by simp at hj; omega
      · obtain rfl : (0, 0) = b := by simpa using hb
        simp only [v0, v1, v2]
        constructor <;> intros <;> linarith
      · obtain rfl : (1, 0) = b := by simpa using hb
        simp
    refine .join (cs := [(0, 0), (1, 0), (2, 0)]) (G := [[(0, 0)], [(2, 0), (1, 0)]]) l2 1 (by simp) (1, 0) (by simp) (by simpa only [v1, v3] using hb) ?_
    intro j hj b hb
    obtain rfl | rfl : j = 0 ∨ j = 1 := by simp at hj; omega
    · obtain rfl : (0, 0) = b := by simpa using hb
      simp only [v0, v1, v3]
      constructor <;> intros <;> linarith
    · obtain rfl : (1, 0) = b := by simpa using hb
      simp
  · have l1 : Leader (fun c c' => rms (subVals R 2 c) (subVals R 2 c')) (16 / 2) [(0, 0), (1, 0)] [[(1, 0), (0, 0)]] := by
      refine .join (cs := [(0, 0)]) (G := [[(0, 0)]]) (.found (cs := []) (G := []) .nil (by simp)) 0 (by simp) (0, 0) (by simp) ?_ ?_
      · simp only [v0, v1]
        linarith
      · intro j hj b hb
        obtain rfl : j = 0 := by simp at hj; omega
        obtain rfl : (0, 0) = b := by simpa using hb
        simp
    have l2 : Leader (fun c c' => rms (subVals R 2 c) (subVals R 2 c')) (16 / 2) [(0, 0), (1, 0), (2, 0)] [[(1, 0), (0, 0)], [(2, 0)]] := by
      refine .found (cs := [(0, 0), (1, 0)]) (G := [[(1, 0), (0, 0)]]) l1 ?_
      intro g hg a ha
      obtain rfl : g = [(1, 0), (0, 0)] := by simpa using hg
      obtain rfl : (0, 0) = a := by simpa using ha
      simp only [v0, v2]
      linarith
    refine .found (cs := [(0, 0), (1, 0), (2, 0)]) (G := [[(1, 0), (0, 0)], [(2, 0)]]) l2 ?_
    intro g hg a ha
    obtain rfl | rfl : g = [(1, 0), (0, 0)] ∨ g = [(2, 0)] := by simpa using hg
    · obtain rfl : (0, 0) = a := by simpa using ha
      simp only [v0, v3]
      linarith
    · obtain rfl : (2, 0) = a := by simpa using ha
      simp only [v2, v3]
      linarith

/-! ## The hypotheses hold -/

/-- Grouping two series of three numbers with the threshold 0: four sub-series of two numbers, three sequences of values, three groups; two of
three numbers. -/
example (io : NumIO (F Rounding.exact)) (stod : Text → Stod (F Rounding.exact)) :
    let R : List (List ℝ) := [[1, 2, 1], [1, 2, 3]]
    let env : Env (F Rounding.exact) := ⟨F.fin 1, F.nan, io, stod, fun _ => false⟩
    let s : GSet (F Rounding.exact) := ⟨⟨some (R.map fins).flatten, 0, 3, 2, "", false⟩, none, none⟩
    ∃ s', s.groupAllLengths env "euclidean" (F.fin 0) = (.ok 5, s') ∧ GroupCount s' 2 3 ∧ GroupCount s' 3 2 := by
  intro R env s
  have hR : s.ds.Holds 3 (R.map fins) := by
    refine ⟨?_, rfl, rfl, [], by simp [s]⟩
    intro r hr
    simp only [R, List.map_cons, List.map_nil, List.mem_cons, List.not_mem_nil, or_false] at hr
    rcases hr with rfl | rfl <;> rfl
  have hfit := ratioOk_of (ratio := 1) (L := 3) (by norm_num) (by norm_num)
  obtain ⟨n, s', h⟩ := C36_completes_partial env 1 rfl s 3 R hR hfit "euclidean" (Or.inl rfl) (F.fin 0) (Or.inr fun _ => rfl)
  obtain ⟨K, hK, e⟩ := C68_total env _ _ s s' n 3 _ hR h
  have h2 := C68_zero env 1 rfl s s' 3 R hR (by norm_num) (by norm_num) n h 2 _ le_rfl (by norm_num) (hK 2 le_rfl (by norm_num))
  have h3 := C68_zero env 1 rfl s s' 3 R hR (by norm_num) (by norm_num) n h 3 _ (by norm_num) le_rfl (hK 3 (by norm_num) le_rfl)
  have k2 : K 2 = 3 := by
    rw [h2, show {x | ∃ c, IsSub R.length (3 : ℕ) (2 : ℕ) c ∧ x = subVals R (2 : ℕ) c} = {[1, 2], [2, 1], [2, 3]} from ?_]
    · rw [Set.ncard_eq_three]
      exact ⟨_, _, _, by norm_num, by norm_num, by norm_num, rfl⟩
    · ext x
      constructor
      · rintro ⟨c, hc, rfl⟩
        have hc := (subOrder_isSub (L := 3) (l := 2) (by norm_num)).mpr hc
        change c ∈ [(0, 0), (1, 0), (0, 1), (1, 1)] at hc
        simp only [List.mem_cons, List.not_mem_nil, or_false] at hc
        rcases hc with rfl | rfl | rfl | rfl <;> simp [subVals, R]
      · rintro (rfl | rfl | rfl)
        · exact ⟨(0, 0), by unfold IsSub; simp [R], by simp [subVals, R]⟩
        · exact ⟨(0, 1), by unfold IsSub; simp [R], by simp [subVals, R]⟩
        · exact ⟨(1, 1), by unfold IsSub; simp [R], by simp [subVals, R]⟩
  have k3 : K 3 = 2 := by
    rw [h3, show {x | ∃ c, IsSub R.length (3 : ℕ) (3 : ℕ) c ∧ x = subVals R (3 : ℕ) c} = {[1, 2, 1], [1, 2, 3]} from ?_]
    · exact Set.ncard_pair (by norm_num)
    · ext x
      constructor
      · rintro ⟨c, hc, rfl⟩
        have hc := (subOrder_isSub (L := 3) (l := 3) (by norm_num)).mpr hc
        change c ∈ [(0, 0), (1, 0)] at hc
        simp only [List.mem_cons, List.not_mem_nil, or_false] at hc
        rcases hc with rfl | rfl <;> simp [subVals, R]
      · rintro (rfl | rfl)
        · exact ⟨(0, 0), by unfold IsSub; simp [R], by simp [subVals, R]⟩
        · exact ⟨(1, 0), by unfold IsSub; simp [R], by simp [subVals, R]⟩
  refine ⟨s', ?_, k2 ▸ hK 2 le_rfl (by norm_num), k3 ▸ hK 3 (by norm_num) le_rfl⟩
  rw [h, e, show Finset.Icc 2 3 = {2, 3} from rfl, Finset.sum_pair (by norm_num), k2, k3]
  rfl

/-- Both distances, the threshold 2, numbers no more than 1 apart: one group for each of the lengths 2 and 3. -/
example (io : NumIO (F Rounding.exact)) (stod : Text → Stod (F Rounding.exact)) (name : String) (hname : name = "euclidean" ∨ name = "euclidean_dtw") :
    let R : List (List ℝ) := [[0, 1, 0], [1, 1, 0]]
    let env : Env (F Rounding.exact) := ⟨F.fin 1, F.nan, io, stod, fun _ => false⟩
    let s : GSet (F Rounding.exact) := ⟨⟨some (R.map fins).flatten, 0, 3, 2, "", false⟩, none, none⟩
    ∃ s', s.groupAllLengths env name (F.fin 2) = (.ok 2, s') ∧ GroupCount s' 2 1 ∧ GroupCount s' 3 1 := by
  intro R env s
  have hR : s.ds.Holds 3 (R.map fins) := by
    refine ⟨?_, rfl, rfl, [], by simp [s]⟩
    intro r hr
    simp only [R, List.map_cons, List.map_nil, List.mem_cons, List.not_mem_nil, or_false] at hr
    rcases hr with rfl | rfl <;> rfl
  have hfit := ratioOk_of (ratio := 1) (L := 3) (by norm_num) (by norm_num)
  obtain ⟨n, s', h⟩ := C36_completes_partial env 1 rfl s 3 R hR hfit name hname (F.fin 2) (Or.inr fun _ => rfl)
  obtain ⟨D, hD⟩ : ∃ D, EqualDist 1 name D := by
    rcases hname with rfl | rfl
    · exact ⟨_, .euclidean⟩
    · exact ⟨_, .dtw⟩
  obtain ⟨e, hk⟩ := C68_coarse env 1 rfl s s' 3 R hR (by norm_num) (by norm_num) hD (by simp [R]) 1 2 (by
    intro x hx y hy
    have hx : x = 0 ∨ x = 1 := by simp [R] at hx; tauto
    have hy : y = 0 ∨ y = 1 := by simp [R] at hy; tauto
    rcases hx with rfl | rfl <;> rcases hy with rfl | rfl <;> norm_num) (by norm_num) n h
  exact ⟨s', by rw [h, e]; rfl, hk 2 (by norm_num) (by norm_num), hk 3 (by norm_num) (by norm_num)⟩

/-- Equal series and the threshold -1: six sub-series, six groups. -/
example (io : NumIO (F Rounding.exact)) (stod : Text → Stod (F Rounding.exact)) :
    let R : List (List ℝ) := [[7, 7, 7], [7, 7, 7]]
    let env : Env (F Rounding.exact) := ⟨F.fin 1, F.nan, io, stod, fun _ => false⟩
    let s : GSet (F Rounding.exact) := ⟨⟨some (R.map fins).flatten, 0, 3, 2, "", false⟩, none, none⟩
    ∃ s', s.groupAllLengths env "euclidean_dtw" (F.fin (-1)) = (.ok 6, s') := by
  intro R env s
  have hR : s.ds.Holds 3 (R.map fins) := by
    refine ⟨?_, rfl, rfl, [], by simp [s]⟩
    intro r hr
    simp only [R, List.map_cons, List.map_nil, List.mem_cons, List.not_mem_nil, or_false] at hr
    rcases hr with rfl | rfl <;> rfl
  have hfit := ratioOk_of (ratio := 1) (L := 3) (by norm_num) (by norm_num)
  obtain ⟨n, s', h⟩ := C36_completes_partial env 1 rfl s 3 R hR hfit _ (Or.inr rfl) (F.fin (-1)) (Or.inr fun _ => rfl)
  obtain ⟨e, _⟩ := C68_negative env 1 rfl s s' 3 R hR (by norm_num) (by norm_num) .dtw (-1) (by norm_num) n h
  exact ⟨s', by rw [h, e]; rfl⟩

/-- The four series of `C68_monotone_counterexample`: with the threshold 8 there are at least the three groups of the threshold 16. -/
example (io : NumIO (F Rounding.exact)) (stod : Text → Stod (F Rounding.exact)) :
    let R : List (List ℝ) := [[0, 0], [10, 0], [10, 9], [10, -9]]
    let env : Env (F Rounding.exact) := ⟨F.fin 1, F.nan, io, stod, fun _ => false⟩
    let s : GSet (F Rounding.exact) := ⟨⟨some (R.map fins).flatten, 0, 2, 4, "", false⟩, none, none⟩
    ∃ n s', s.groupAllLengths env "euclidean" (F.fin 8) = (.ok n, s') ∧ 3 ≤ n := by
  intro R env s
  obtain ⟨hR, _, s'', h'⟩ := C68_monotone_counterexample io stod
  have hfit := ratioOk_of (ratio := 1) (L := 2) (by norm_num) (by norm_num)
  obtain ⟨n, s', h⟩ := C36_completes_partial env 1 rfl s 2 R hR hfit _ (Or.inl rfl) (F.fin 8) (Or.inr fun _ => rfl)
  exact ⟨n, s', h, (C68_halving env 1 rfl s s'' 2 R hR (by norm_num) (by norm_num) s' 16 8 (by norm_num) 3 n h' h).1⟩

end Onex
