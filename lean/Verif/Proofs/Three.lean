import Verif.Props.Grouping

/-!
# Three series of two points, grouped

`[0, 0]` and `[2, 2]` share a group, `[3, 3]` has its own.
-/

namespace Onex
namespace Three
open DataT Spec

abbrev X := F Rounding.exact

noncomputable def ds : Dataset X := ⟨some (fins [0, 0, 2, 2, 3, 3]), 0, 2, 3, "", false⟩

def view (i : Int) : View := { gen := 0, base := i * 2, index := i, start := 0, stop := 2 }

/-- The groups. -/
noncomputable def ls : LocalSpace X :=
  { length := 2, subCount := 1,
    groups := [{ groupIndex := 0, last := (1, 0), memberLength := 2, subCount := 1, count := 2,
                 centroid := { src := .view (view 0), cache := none } },
               { groupIndex := 1, last := (2, 0), memberLength := 2, subCount := 1, count := 1,
                 centroid := { src := .view (view 2), cache := none } }],
    memberMap := [⟨(-1, -1), 0⟩, ⟨(0, 0), 0⟩, ⟨(-1, -1), 1⟩] }

theorem get0 : ds.getTimeSeries 0 0 (0 + 2) = .ok (view 0) := by simp [Dataset.getTimeSeries, ds, view]
theorem get1 : ds.getTimeSeries 1 0 (0 + 2) = .ok (view 1) := by simp [Dataset.getTimeSeries, ds, view]
theorem get2 : ds.getTimeSeries 2 0 (0 + 2) = .ok (view 2) := by simp [Dataset.getTimeSeries, ds, view]
theorem res0 : ds.resolve (view 0) = .ok (fins [0, 0]) := by simp [Dataset.resolve, Dataset.buf, ds, view, fins, len]
theorem res1 : ds.resolve (view 1) = .ok (fins [2, 2]) := by simp [Dataset.resolve, Dataset.buf, ds, view, fins, len]
theorem res2 : ds.resolve (view 2) = .ok (fins [3, 3]) := by
  simp [Dataset.resolve, Dataset.buf, ds, view, fins, len]

theorem rms_const (x : ℝ) (h : 0 ≤ x) : rms [0, 0] [x, x] = x := by
  unfold rms
  rw [show (∑ i ∈ Finset.range [(0 : ℝ), 0].length, ([(0 : ℝ), 0].getD i 0 - [x, x].getD i 0) ^ 2) /
    ([(0 : ℝ), 0].length : ℝ) = x ^ 2 by simp [Finset.sum_range_succ]]
  exact Real.sqrt_sq h

theorem pair (x : ℝ) (h : 0 ≤ x) : pairwiseDistance (fins [0, 0]) (fins [x, x]) (F.pinf : X) = .ok (F.fin x) := by
  have := C01_pairwise_is_rms [0, 0] [x, x] rfl (by simp)
  rw [rms_const x h] at this
  exact this

theorem half4 : div (F.fin 4 : X) (ofInt 2) = F.fin 2 := by
  rw [half_fin]
  norm_num [Rounding.exact]

/-- The group of `[0, 0]` with `n` members, the last one `i`. -/
def g0 (i n : Int) : Group X :=
  { groupIndex := 0, last := (i, 0), memberLength := 2, subCount := 1, count := n,
    centroid := { src := .view (view 0), cache := none } }

theorem place0 : placeOne ds (DistName.fn (F.fin 0) .euclidean) (F.fin 4) 0 0
    { length := 2, subCount := 1, groups := [], memberMap := List.replicate 3 Membership.default } =
    .ok { length := 2, subCount := 1, groups := [g0 0 1], memberMap := [⟨(-1, -1), 0⟩, .default, .default] } := by
  unfold placeOne
  simp only [get0, res0, Res.bind_ok, nearest, forInt_of_le (show len ([] : List (Group X)) ≤ 0 by simp [len])]
  simp [len, Group.setCentroid, Group.new, vget, Group.addMember, vset, g0, List.replicate]
  simp [ds, Dataset.getTimeSeries, view]

theorem near (x : ℝ) (h : 0 ≤ x) (i n : Int) : nearest ds (DistName.fn (F.fin 0) .euclidean) [g0 i n] (Series.mk' (fins [x, x])) DataT.inf =
    .ok ⟨[g0 i n], Series.mk' (fins [x, x]), F.fin x, some 0⟩ := by
  unfold nearest
  rw [forInt_succ (by simp [len])]
  have hn : nearestStep ds (DistName.fn (F.fin 0) .euclidean) 0 ⟨[g0 i n], Series.mk' (fins [x, x]), DataT.inf, none⟩ =
      .ok ⟨[g0 i n], Series.mk' (fins [x, x]), F.fin x, some 0⟩ := by
    simp [nearestStep, vget, Group.distanceFromCentroid, g0, Cent.resolve, res0, DistName.fn, Series.mk', inf_F, pair x h, vset,
      len, lt_fin_pinf]
  rw [hn, Res.bind_ok, forInt_of_le (by simp [len])]

theorem place1 : placeOne ds (DistName.fn (F.fin 0) .euclidean) (F.fin 4) 1 0
    { length := 2, subCount := 1, groups := [g0 0 1], memberMap := [⟨(-1, -1), 0⟩, .default, .default] } =
    .ok { length := 2, subCount := 1, groups := [g0 1 2], memberMap := [⟨(-1, -1), 0⟩, ⟨(0, 0), 0⟩, .default] } := by
  unfold placeOne
  have hg : gt (F.fin 2 : X) (F.fin 2) = false := by
    unfold gt
    rw [lt_eq_false]
    simp [F.Lt]
  simp only [get1, res1, Res.bind_ok, near 2 (by norm_num), half4, hg]
  simp [len, vget, Group.addMember, vset, g0]

theorem place2 : placeOne ds (DistName.fn (F.fin 0) .euclidean) (F.fin 4) 2 0
    { length := 2, subCount := 1, groups := [g0 1 2], memberMap := [⟨(-1, -1), 0⟩, ⟨(0, 0), 0⟩, .default] } = .ok ls := by
  unfold placeOne
  have hg : gt (F.fin 3 : X) (F.fin 2) = true := by
    unfold gt
    rw [lt_iff]
    show (2 : ℝ) < 3
    norm_num
  simp only [get2, res2, Res.bind_ok, near 3 (by norm_num), half4, hg]
  simp [len, Group.setCentroid, Group.new, vget, Group.addMember, vset, g0, ls]
  simp [ds, Dataset.getTimeSeries, view]

/-- The grouped dataset. -/
noncomputable def grouped : GSet X :=
  ⟨ds, some { locals := [none, none, some ls], distanceName := "euclidean" }, some (F.fin 4)⟩

theorem group_eq (env : Env X) (hr : env.ratio = F.fin 0) (hl : ∀ i, env.doLog i = false) :
    GSet.groupAllLengths env "euclidean" (F.fin 4) ⟨ds, none, none⟩ = (.ok 2, grouped) := by
  have h : LocalSpace.generateGroups ds (DistName.fn (F.fin 0) .euclidean) (F.fin 4) false
      { length := 2, subCount := 1, groups := [], memberMap := List.replicate 3 Membership.default } = .ok ls := by
    unfold LocalSpace.generateGroups
    simp only
    rw [forInt_succ (by norm_num), forInt_succ (show (0 : Int) < ds.itemCount by simp [ds])]
    simp only [logProgress, Bool.false_eq_true, false_and, if_false, Res.bind_ok]
    rw [place0, Res.bind_ok, forInt_succ (show (0 + 1 : Int) < ds.itemCount by simp [ds])]
    rw [show (0 + 1 : Int) = 1 from rfl, place1, Res.bind_ok, forInt_succ (show (1 + 1 : Int) < ds.itemCount by simp [ds])]
    rw [show (1 + 1 : Int) = 2 from rfl, place2, Res.bind_ok, forInt_of_le (by simp [ds]), Res.bind_ok, forInt_of_le (by simp)]
  have hnew : LocalSpace.new ds 2 =
      .ok { length := 2, subCount := 1, groups := [], memberMap := List.replicate 3 Membership.default } := by
    simp [LocalSpace.new, ds]
  unfold GSet.groupAllLengths
  rw [if_neg (by simp [ds, Dataset.isLoaded])]
  simp only [GSet.reset, GlobalSpace.group, getDistance, if_true, hr]
  rw [if_neg (by simp [ds])]
  rw [forInt_succ (by simp [ds])]
  simp only [hnew, hl, Res.bind_ok, h]
  have e : ds.itemLength = 2 := rfl
  simp only [e]
  rw [show (2 + 1 : Int).toNat = 3 from rfl]
  simp [vset, forInt, forIntGo, LocalSpace.getNumberOfGroups, len, grouped, ls, List.replicate]

end Three
end Onex
