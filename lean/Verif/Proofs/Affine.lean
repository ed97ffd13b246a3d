import Mathlib.Data.Real.Pointwise
import Verif.Proofs.Kim
import Verif.Proofs.Dists
import Verif.Proofs.Leader
import Verif.Spec.Answer

/-!
# Changing the scale and offset of the data
-/

namespace Onex
open DataT Spec

/-- The series with every value `x` replaced by `c * x + b`. -/
def affine (c b : ℝ) (a : List ℝ) : List ℝ := a.map fun x => c * x + b

@[simp] theorem affine_length (c b : ℝ) (a : List ℝ) : (affine c b a).length = a.length := by simp [affine]

theorem affine_getD {c b : ℝ} {a : List ℝ} {i : ℕ} (h : i < a.length) : (affine c b a).getD i 0 = c * a.getD i 0 + b := by
  simp [affine, h]

theorem subVals_affine (c b : ℝ) (R : List (List ℝ)) (l : Int) (x : Coord) :
    subVals (R.map (affine c b)) l x = affine c b (subVals R l x) := by
  unfold subVals affine
  rw [List.map_take, List.map_drop]
  congr 2
  by_cases h : x.1.toNat < R.length <;> simp [List.getD_eq_getElem?_getD, h]

theorem rms_affine {c b : ℝ} {x y : List ℝ} (h : x.length = y.length) : rms (affine c b x) (affine c b y) = |c| * rms x y := by
  unfold rms
  rw [affine_length, ← Real.sqrt_sq_eq_abs c, ← Real.sqrt_mul (sq_nonneg c), ← mul_div_assoc, Finset.mul_sum]
  congr 2
  refine Finset.sum_congr rfl fun i hi => ?_
  have hi := Finset.mem_range.mp hi
  rw [affine_getD hi, affine_getD (by omega)]
  ring

theorem pathCost_affine {c b : ℝ} {a a' : List ℝ} {p : List (ℕ × ℕ)} (h : ∀ q ∈ p, q.1 < a.length ∧ q.2 < a'.length) :
    pathCost (affine c b a) (affine c b a') p = c ^ 2 * pathCost a a' p := by
  unfold pathCost
  rw [← List.sum_map_mul_left]
  refine congrArg List.sum (List.map_congr_left fun q hq => ?_)
  rw [affine_getD (h q hq).1, affine_getD (h q hq).2]
  ring

theorem warpCosts_affine {c b : ℝ} {r : ℕ} {a a' : List ℝ} (ha : 1 ≤ a.length) (ha' : 1 ≤ a'.length) :
    warpCosts r (affine c b a) (affine c b a') = (fun x => c ^ 2 * x) '' warpCosts r a a' := by
  ext x
  simp only [warpCosts, affine_length, Set.mem_ofPred_eq, Set.mem_image]
  have hin : ∀ p, IsWarpPath r (a.length - 1) (a'.length - 1) p → ∀ q ∈ p, q.1 < a.length ∧ q.2 < a'.length := by
    intro p hp q hq
    have := path_le hp q hq
    omega
  constructor
  · rintro ⟨p, hp, rfl⟩
    exact ⟨_, ⟨p, hp, rfl⟩, (pathCost_affine (hin p hp)).symm⟩
  · rintro ⟨_, ⟨p, hp, rfl⟩, rfl⟩
    exact ⟨p, hp, pathCost_affine (hin p hp)⟩

theorem warpedIn_affine {c b : ℝ} {r : ℕ} {a a' : List ℝ} (ha : 1 ≤ a.length) (ha' : 1 ≤ a'.length) :
    warpedIn r (affine c b a) (affine c b a') = |c| * warpedIn r a a' := by
  unfold warpedIn
  rw [warpCosts_affine ha ha', affine_length, affine_length]
  have : sInf ((fun x => c ^ 2 * x) '' warpCosts r a a') = c ^ 2 * sInf (warpCosts r a a') :=
    Real.sInf_smul_of_nonneg (sq_nonneg c) _
  rw [this, Real.sqrt_mul (sq_nonneg c), Real.sqrt_sq_eq_abs, mul_div_assoc]

theorem warped_affine {c b ratio : ℝ} {a a' : List ℝ} (ha : 1 ≤ a.length) (ha' : 1 ≤ a'.length) :
    warped ratio (affine c b a) (affine c b a') = scl |c| (warped ratio a a') := by
  have h := warpedIn_affine (c := c) (b := b) (r := bandSize ratio (max a.length a'.length)) ha ha'
  have hiff : (warpCosts (bandSize ratio (max (affine c b a).length (affine c b a').length)) (affine c b a) (affine c b a')).Nonempty ↔
      (warpCosts (bandSize ratio (max a.length a'.length)) a a').Nonempty := by
    rw [warpCosts_affine ha ha', affine_length, affine_length]
    exact Set.image_nonempty
  unfold warped
  simp only
  by_cases hne : (warpCosts (bandSize ratio (max a.length a'.length)) a a').Nonempty
  · rw [if_pos hne, if_pos (hiff.mpr hne)]
    unfold warpedIn at h
    simp only [affine_length] at h ⊢
    rw [h]
    rfl
  · rw [if_neg hne, if_neg (mt hiff.mp hne)]
    rfl

theorem equalDist_affine {c b ratio : ℝ} {name : String} {D} (hD : EqualDist ratio name D) {x y : List ℝ}
    (h : x.length = y.length) (hx : 1 ≤ x.length) : D (affine c b x) (affine c b y) = |c| * D x y := by
  cases hD with
  | euclidean => exact rms_affine h
  | dtw =>
    simp only [affine_length]
    exact warpedIn_affine hx (by omega)

/-! ## Clustering and answers with scaled distances -/

theorem Spec.Leader.mem {β : Type} {D : β → β → ℝ} {h : ℝ} {cs : List β} {G : List (List β)} (hG : Leader D h cs G) :
    ∀ g ∈ G, ∀ c ∈ g, c ∈ cs := by
  induction hG with
  | nil => simp
  | found hG far ih =>
    intro g hg c hc
    rcases List.mem_append.mp hg with hg | hg
    · exact List.mem_append_left _ (ih g hg c hc)
    · rw [List.mem_singleton.mp hg, List.mem_singleton] at hc
      simp [hc]
  | join hG k hk a ha near least ih =>
    intro g hg c hc
    rcases List.mem_or_eq_of_mem_set hg with hg | rfl
    · exact List.mem_append_left _ (ih g hg c hc)
    · rcases List.mem_cons.mp hc with rfl | hc
      · simp
      · exact List.mem_append_left _ (ih _ (List.getElem_mem hk) c hc)

theorem Spec.Leader.scale {β : Type} {D D' : β → β → ℝ} {h κ : ℝ} (hκ : 0 < κ) {cs : List β} {G : List (List β)}
    (hG : Leader D h cs G) (hD : ∀ a ∈ cs, ∀ b ∈ cs, D' a b = κ * D a b) : Leader D' (κ * h) cs G := by
  induction hG with
  | nil => exact .nil
  | @found cs G c hG far ih =>
    refine .found (ih fun a ha b hb => hD a (by simp [ha]) b (by simp [hb])) fun g hg a ha => ?_
    have := hG.mem g hg a (List.mem_of_getLast? ha)
    rw [hD a (by simp [this]) c (by simp)]
    exact mul_lt_mul_of_pos_left (far g hg a ha) hκ
  | @join cs G c hG k hk a ha near least ih =>
    have hm : ∀ (j : ℕ) (hj : j < G.length), ∀ b ∈ G[j].getLast?, D' b c = κ * D b c := by
      intro j hj b hb
      have := hG.mem _ (List.getElem_mem hj) b (List.mem_of_getLast? hb)
      exact hD b (by simp [this]) c (by simp)
    refine .join (ih fun a ha b hb => hD a (by simp [ha]) b (by simp [hb])) k hk a ha ?_ ?_
    · rw [hm k hk a ha]
      exact mul_le_mul_of_nonneg_left near hκ.le
    · intro j hj b hb
      rw [hm k hk a ha, hm j hj b hb]
      exact ⟨mul_le_mul_of_nonneg_left (least j hj b hb).1 hκ.le, fun h => mul_lt_mul_of_pos_left ((least j hj b hb).2 h) hκ⟩

theorem lt_scl {ρ : Rounding} {κ : ℝ} (hκ : 0 < κ) (x y : F ρ) : lt (scl κ x) (scl κ y) = true ↔ lt x y = true := by
  rw [lt_iff, lt_iff]
  cases x <;> cases y <;> simp only [scl, F.Lt]
  exact mul_lt_mul_iff_right₀ hκ

theorem scl_ne_pinf {ρ : Rounding} {κ : ℝ} {x : F ρ} : scl κ x ≠ F.pinf ↔ x ≠ F.pinf := by
  cases x <;> simp [scl]

theorem Spec.Answer.scale {w w' : Int → Coord → F Rounding.exact} {G : Int → List (List Coord)} {L : ℕ} {q l : Int} {c : Coord}
    {κ : ℝ} (hκ : 0 < κ) (hw : ∀ l : Int, 2 ≤ l → l ≤ L → ∀ g ∈ G l, ∀ c ∈ g, w' l c = scl κ (w l c))
    (h : Answer w G L q l c) : Answer w' G L q l c ∧ w' l c = scl κ (w l c) := by
  obtain ⟨⟨l2, lL⟩, hfin, k, hk, a, ha, h1, h2, pre, post, h3, h4⟩ := h
  have hc : c ∈ (G l)[k] := by rw [h3]; simp
  have hin := hw l l2 lL _ (List.getElem_mem hk)
  have hwa := hin a (List.mem_of_getLast? ha)
  refine ⟨⟨⟨l2, lL⟩, by rw [hin c hc, scl_ne_pinf]; exact hfin, k, hk, a, ha, ?_, ?_, pre, post, h3, ?_⟩, hin c hc⟩
  · intro l' l2' lL' k' hk' a' ha'
    rw [hwa, hw l' l2' lL' _ (List.getElem_mem hk') a' (List.mem_of_getLast? ha'), lt_scl hκ, lt_scl hκ]
    exact h1 l' l2' lL' k' hk' a' ha'
  · intro c' hc'
    rw [hin c' hc', hin c hc, lt_scl hκ]
    exact h2 c' hc'
  · intro c' hc'
    rw [hin c' (by rw [h3]; simp [hc']), hin c hc, lt_scl hκ]
    exact h4 c' hc'

end Onex
