import Verif.Model.SeriesPaa
import Verif.Proofs.Paa
import Verif.Proofs.GroupGlobal

/-!
# `tsPAA`
-/

namespace Onex
open DataT Spec

set_option linter.unusedSectionVars false

variable {α : Type} [DataT α]

theorem tsGet_of_vget {l : List α} {i : Int} {v : α} (h : vget l i = .ok v) : tsGet l i = .ok v := by
  have := vget_lt h
  unfold tsGet
  rw [if_neg (by omega), h]

theorem tsSet_of_vset {l l' : List α} {i : Int} {v : α} (h : vset l i v = .ok l') : tsSet l i v = .ok l' := by
  unfold tsSet
  by_cases hi : i < 0 ∨ i ≥ len l
  · unfold vset at h
    rw [if_neg (by omega)] at h
    cases h
  · rw [if_neg hi, h]

/-- For positive block sizes the checks never fail, and the loop is that of `doPAA`. -/
theorem tsPAA_spec (source : List α) (n : Nat) (hn : 1 ≤ n) (hL : 1 ≤ source.length) :
    tsPAA source n = .ok (paaVals n source ((source.length + n - 1) / n)) := by
  have hP := ceil_eq source.length n hn hL
  have h := doPAA_spec source 0 source [] (List.replicate ((source.length - 1) / n + 1) zero) n source.length ((source.length - 1) / n + 1) hn
    rfl rfl hL (by simp) (by simp)
  have hc := calcPAALength_eq source.length n hL
  unfold doPAA at h
  obtain ⟨s, h1, h2⟩ := Res.bind_eq_ok.mp h
  unfold tsPAA
  rw [if_neg (by omega)]
  have hc' : calcPAALength (len source) n = (((source.length - 1) / n + 1 : Nat) : Int) := hc
  dsimp only
  rw [hc', if_neg (not_lt.mpr (Int.natCast_nonneg _)), Int.toNat_natCast]
  have h1' := forInt_mono_ok (g := tsPaaBody source n) (fun i s s' _ _ hb => ?_) h1
  · have h1'' : forInt 0 (len source) { dest := List.replicate ((source.length - 1) / n + 1) zero, sum := zero, count := 0 }
        (tsPaaBody source n) = .ok s := h1'
    rw [h1'', Res.bind_ok, h2]
    simp [hP]
  · simp only [Nat.cast_zero, zero_add, List.length_nil] at hb
    obtain ⟨v, hv, hb⟩ := Res.bind_eq_ok.mp hb
    unfold tsPaaBody
    rw [tsGet_of_vget hv]
    simp only [Res.bind_ok]
    split at hb
    · rename_i hc
      rw [if_pos (show s.count + 1 = (n : Int) ∨ i = len source - 1 from hc)]
      obtain ⟨d, hd, hb⟩ := Res.bind_eq_ok.mp hb
      rw [tsSet_of_vset hd, Res.bind_ok]
      exact hb
    · rename_i hc
      rw [if_neg (show ¬ (s.count + 1 = (n : Int) ∨ i = len source - 1) from hc)]
      exact hb

/-- For negative block sizes only the last round writes. -/
theorem tsPaa_neg (n : Int) (hn : n < 0) (dest : List α) : ∀ (xs pre : List α) (sum : α), xs ≠ [] →
    forIntGo (tsPaaBody (pre ++ xs) n) xs.length pre.length { dest := dest, sum := sum, count := pre.length } =
      (tsSet dest ((len (pre ++ xs) - 1).tdiv n) (div (xs.foldl add sum) (ofInt (len (pre ++ xs)))) >>= fun d =>
        .ok { dest := d, sum := zero, count := 0 })
  | [], _, _, h => absurd rfl h
  | [x], pre, sum, _ => by
    have hg : tsGet (pre ++ [x]) pre.length = .ok x := tsGet_of_vget (by rw [vget_nat (by simp)]; simp)
    have e : len (pre ++ [x]) = (pre.length : Int) + 1 := by simp [len]
    simp only [List.length_singleton, forIntGo, tsPaaBody, hg, Res.bind_ok, e, add_sub_cancel_right, or_true, if_true, List.foldl]
    cases tsSet dest ((pre.length : Int).tdiv n) (div (add sum x) (ofInt ((pre.length : Int) + 1))) <;> rfl
  | x :: y :: ys, pre, sum, _ => by
    have hg : tsGet (pre ++ x :: y :: ys) pre.length = .ok x := tsGet_of_vget (by rw [vget_nat (by simp)]; simp)
    have ih := tsPaa_neg n hn dest (y :: ys) (pre ++ [x]) (add sum x) (by simp)
    have e : len (pre ++ x :: y :: ys) = (pre.length : Int) + ys.length + 2 := by simp [len]; omega
    rw [List.length_cons, forIntGo]
    have hb : tsPaaBody (pre ++ x :: y :: ys) n pre.length { dest := dest, sum := sum, count := pre.length } =
        .ok { dest := dest, sum := add sum x, count := (pre.length : Int) + 1 } := by
      unfold tsPaaBody
      rw [hg, Res.bind_ok, if_neg (by rw [e]; dsimp only; omega)]
      rfl
    rw [hb, Res.bind_ok]
    simpa using ih

end Onex
