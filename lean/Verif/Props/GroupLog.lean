import Verif.Proofs.GroupLog
import Verif.Props.Grouping

/-!
# C36: exactly when grouping completes
-/

namespace Onex
open DataT Spec

section
variable {ρ : Rounding}

/-- C36: exactly when grouping completes. There are no series, or whenever a progress report is due while the sub-series of a length are
grouped, there are at least five of them. Otherwise the remainder of a division by zero is taken. This holds for finite data, both
distances, every rounding and every threshold. -/
theorem C36_exactly (env : Env (F ρ)) (ratio : ℝ) (hratio : env.ratio = F.fin ratio) (s : GSet (F ρ)) (L : Nat) (R : List (List ℝ))
    (hR : s.ds.Holds L (R.map fins)) (hfit : ∀ l ≤ L, RatioOk ρ ratio l) (name : String) (hname : name = "euclidean" ∨ name = "euclidean_dtw")
    (th : F ρ) :
    ((∃ n s', s.groupAllLengths env name th = (.ok n, s')) ↔
      R = [] ∨ ∀ l : ℕ, 2 ≤ l → l ≤ L → env.doLog l = true → 5 ≤ R.length * (L - l + 1)) ∧
    ((¬ ∃ n s', s.groupAllLengths env name th = (.ok n, s')) → (s.groupAllLengths env name th).1 = .ub "modulo by zero") := by
  have hdn : ∃ dn, getDistance name = .ok dn := by
    rcases hname with rfl | rfl
    · exact ⟨_, rfl⟩
    · exact ⟨_, rfl⟩
  obtain ⟨dn, hdn⟩ := hdn
  have hcnt := HoldsReal.count hR
  have hload : s.ds.isLoaded = true := by
    obtain ⟨slack, hd⟩ := hR.data
    simp [Dataset.isLoaded, hd]
  have one : ∀ l : ℕ, 2 ≤ l → l ≤ L → (R = [] ∨ (env.doLog l = true → 5 ≤ R.length * (L - l + 1))) →
      (LocalSpace.new s.ds l >>= fun ls => ls.generateGroups s.ds (dn.fn env.ratio) th (env.doLog l)).Ensures fun _ => True := by
    intro l h1 h2 hc
    obtain ⟨dom, W, hf, hd⟩ := named_faithful (ρ := ρ) dn (l := l) (by omega) (hfit _ (by omega))
    obtain ⟨ls, e1, e2⟩ := new_ok s.ds (by omega) (l := l) (by rw [hR.itemLength]; omega)
    rw [e1, Res.bind_ok, hratio]
    refine (generate_real hR (by omega) hf (fun a b ha hb => ⟨(hd a b ha hb).1, (hd a b ha hb).2.1⟩) th _ e1 ?_).mono
      (fun _ _ => trivial)
    intro h
    rcases hc with rfl | hc
    · simp at hcnt
      omega
    · have e : ls.subCount * s.ds.itemCount = ((R.length * (L - l + 1) : ℕ) : Int) := by
        rw [e2, hR.itemLength, hcnt]
        push_cast [h2]
        ring
      rw [e]
      exact log_fine hc
  have good : (R = [] ∨ ∀ l : ℕ, 2 ≤ l → l ≤ L → env.doLog l = true → 5 ≤ R.length * (L - l + 1)) →
      ∃ n s', s.groupAllLengths env name th = (.ok n, s') := by
    intro hc
    obtain ⟨n, gs, hg⟩ := group_total (GlobalSpace.fresh : GlobalSpace (F ρ)) (ratio := env.ratio) (th := th)
      (doLog := env.doLog) hdn (ds := s.ds) (by rw [hR.itemLength]; omega) (by
        intro l h1 h2
        rw [hR.itemLength] at h2
        obtain ⟨l, rfl⟩ := Int.eq_ofNat_of_zero_le (by omega : 0 ≤ l)
        exact one l (by omega) (by omega) (hc.imp id fun h => h l (by omega) (by omega)))
    refine ⟨n, { s with groups := some gs, threshold := some th }, ?_⟩
    unfold GSet.groupAllLengths
    rw [if_neg (by simp [hload])]
    simp only [GSet.reset]
    rw [hg]
  have bad : ¬ (R = [] ∨ ∀ l : ℕ, 2 ≤ l → l ≤ L → env.doLog l = true → 5 ≤ R.length * (L - l + 1)) →
      (s.groupAllLengths env name th).1 = .ub "modulo by zero" := by
    intro hc
    rw [not_or] at hc
    obtain ⟨hne, hc⟩ := hc
    have hpos : 0 < R.length := List.length_pos_iff.mpr hne
    have hex : ∃ l : ℕ, 2 ≤ l ∧ l ≤ L ∧ env.doLog l = true ∧ R.length * (L - l + 1) < 5 := by
      push Not at hc
      exact hc
    classical
    obtain ⟨m2, mL, mlog, m5⟩ := Nat.find_spec hex
    have hmin : ∀ l : ℕ, l < Nat.find hex → 2 ≤ l → l ≤ L → env.doLog l = true → 5 ≤ R.length * (L - l + 1) := by
      intro l hl h1 h2 h3
      by_contra h
      exact Nat.find_min hex hl ⟨h1, h2, h3, by omega⟩
    generalize Nat.find hex = m at m2 mL mlog m5 hmin
    have hrun : ∃ gs, (GlobalSpace.fresh : GlobalSpace (F ρ)).group env.ratio s.ds name th env.doLog = (.ub "modulo by zero", gs) := by
      unfold GlobalSpace.group
      simp only [hdn]
      rw [if_neg (by rw [hR.itemLength]; omega), forInt_ub (w := "modulo by zero") (m := m)
        (fun (x : List (Option (LocalSpace (F ρ))) × Int) => len x.1 = s.ds.itemLength + 1) (by rw [hR.itemLength]; omega) ?_ (m - 2) 2 _ (by omega) ?_ ?_]
      · exact ⟨_, rfl⟩
      · intro x _
        obtain ⟨ls, e1, e2⟩ := new_ok s.ds (by omega) (l := m) (by rw [hR.itemLength]; omega)
        have e : ls.subCount * s.ds.itemCount = ((R.length * (L - m + 1) : ℕ) : Int) := by
          rw [e2, hR.itemLength, hcnt]
          push_cast [mL]
          ring
        have h3 : ls.generateGroups s.ds (dn.fn env.ratio) th (env.doLog m) = .ub "modulo by zero" := by
          unfold LocalSpace.generateGroups
          have hl : logProgress (env.doLog m) (ls.subCount * s.ds.itemCount) = .ub "modulo by zero" := by
            unfold logProgress
            rw [if_pos ⟨mlog, by rw [e]; exact Int.tdiv_eq_zero_of_lt (by omega) (by omega)⟩]
          rw [forInt_succ (by rw [e2, hR.itemLength]; omega), forInt_succ (by omega), hl]
          rfl
        rw [e1]
        simp only [Res.bind_ok]
        rw [h3]
        rfl
      · rw [len_replicate, hR.itemLength]
        omega
      · rintro j ⟨s1, s2⟩ hj1 hj2 hi
        simp only at hi
        rw [hR.itemLength] at hi
        obtain ⟨j, rfl⟩ := Int.eq_ofNat_of_zero_le (by omega : 0 ≤ j)
        obtain ⟨ls, h1, _⟩ := one j (by omega) (by omega) (.inr (hmin j (by omega) (by omega) (by omega)))
        obtain ⟨ls0, h2, h3⟩ := Res.bind_eq_ok.mp h1
        simp only [h2, h3, Res.bind_ok, vset_ok (some ls) (by omega : 0 ≤ (j : Int)) (by omega : (j : Int) < len s1), Res.pure_eq,
          Res.ensures_ok, len_set, hR.itemLength]
        exact hi
    obtain ⟨gs, hg⟩ := hrun
    unfold GSet.groupAllLengths
    rw [if_neg (by simp [hload])]
    simp only [GSet.reset]
    rw [hg]
  refine ⟨⟨fun ⟨n, s', h⟩ => ?_, good⟩, fun h => bad fun hc => h (good hc)⟩
  by_contra hc
  have := bad hc
  rw [h] at this
  simp at this

/-- Two series of four values, a progress report due at length 3 only: four sub-series, undefined. Due at length 2 only: six, defined. -/
example (io : NumIO (F ρ)) (stod : Text → Stod (F ρ)) (hfit : ∀ l ≤ 4, RatioOk ρ 1 l) (th : F ρ) :
    let s : GSet (F ρ) := ⟨⟨some (([[1, 2, 3, 4], [5, 6, 7, 8]] : List (List ℝ)).map fins).flatten, 0, 4, 2, "", false⟩, none, none⟩
    (s.groupAllLengths ⟨F.fin 1, F.nan, io, stod, fun l => l == 3⟩ "euclidean" th).1 = .ub "modulo by zero" ∧
    ∃ n s', s.groupAllLengths ⟨F.fin 1, F.nan, io, stod, fun l => l == 2⟩ "euclidean" th = (.ok n, s') := by
  intro s
  have hR : s.ds.Holds 4 (([[1, 2, 3, 4], [5, 6, 7, 8]] : List (List ℝ)).map fins) := ⟨by simp, rfl, rfl, [], by simp [s]⟩
  constructor
  · refine (C36_exactly _ 1 rfl s 4 _ hR hfit _ (.inl rfl) th).2 fun h => ?_
    rcases (C36_exactly _ 1 rfl s 4 _ hR hfit _ (.inl rfl) th).1.mp h with h | h
    · simp at h
    · have := h 3 (by norm_num) (by norm_num) rfl
      simp at this
  · refine (C36_exactly _ 1 rfl s 4 _ hR hfit _ (.inl rfl) th).1.mpr (.inr fun l h2 h4 hl => ?_)
    obtain rfl : l = 2 := by
      simp at hl
      omega
    simp

end

end Onex
