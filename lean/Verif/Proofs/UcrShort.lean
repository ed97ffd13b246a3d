import Verif.Proofs.RunRat
import Verif.Proofs.UcrEdge

/-!
# A query file with fewer values than were asked for
-/

namespace Onex
open DataT Spec

/-- The rational it is, if it is one. -/
def Run.rat : Run → Option ℚ
  | .q x => some x
  | _ => none

theorem rats_emb {l : List Run} {l' : List Ex} {q : List ℚ} (h : List.Forall₂ (fun a b => Run.emb a = b) l l') (e : l.map Run.rat = q.map some) :
    l' = fins (q.map ((↑) : ℚ → ℝ)) := by
  induction h generalizing q with
  | nil =>
    cases q with
    | nil => rfl
    | cons _ _ => cases e
  | @cons a b l l' hab _ ih =>
    cases q with
    | nil => cases e
    | cons x q =>
      rw [List.map_cons, List.map_cons, List.cons.injEq] at e
      rw [ih e.2, ← hab]
      cases a with
      | q y =>
        have : y = x := by simpa [Run.rat] using e.1
        rw [this]
        rfl
      | _ => cases e.1

/-- A run of `prepare` on rationals, for a band of 0, in the order of the query. -/
def preparedTo (m : Int) (order : List Int) (q : List ℚ) : Res (UcrQuery Run) → Bool
  | .ok Q => decide (Q.m = m) && decide (Q.r = 0) && decide (Q.order = order) && decide (Q.q.map Run.rat = q.map some) && decide (Q.qo.map Run.rat = q.map some) &&
      decide (Q.uo.map Run.rat = q.map some) && decide (Q.lo.map Run.rat = q.map some)
  | _ => false

theorem prepare_ran {j : ℚ} {f q : List ℚ} {m : ℕ} (hq : q.length = m)
    (h : preparedTo m ((List.range m).map Int.ofNat) q (prepare (.q j) ((List.range m).map Int.ofNat) (runs f) m 0) = true) :
    (prepare (F.fin (j : ℝ) : Ex) ((List.range m).map Int.ofNat) (fins (f.map ((↑) : ℚ → ℝ))) m (0 : ℕ)).Ensures fun Q => QueryOk Q m 0 (q.map ((↑) : ℚ → ℝ)) := by
  have key := RR.prepare (R := fun (a : Run) (b : Ex) => a.emb = b) (junk := .q j) (junk' := F.fin (j : ℝ)) rfl ((List.range m).map Int.ofNat) (forall₂_runs f) m 0
  have e0 : ((0 : ℕ) : Int) = 0 := rfl
  rw [e0]
  generalize prepare (Run.q j) _ (runs f) m 0 = x at h key
  generalize prepare (F.fin (j : ℝ) : Ex) _ _ (m : Int) 0 = y at key ⊢
  cases key with
  | throw => cases h
  | ub => cases h
  | @ok a b hab =>
    simp only [preparedTo, Bool.and_eq_true, decide_eq_true_eq] at h
    obtain ⟨⟨⟨⟨⟨⟨h1, h2⟩, h3⟩, h4⟩, h5⟩, h6⟩, h7⟩ := h
    rw [Res.ensures_ok]
    have get : ∀ (l : List Ex), l = fins (q.map ((↑) : ℚ → ℝ)) → ∀ (i : ℕ) (hi : i < (List.range m).length),
        vget l i = .ok (F.fin ((q.map ((↑) : ℚ → ℝ)).getD (List.range m)[i] 0)) := by
      rintro _ rfl i hi
      have : i < m := by simpa using hi
      rw [vget_fins (by simp; omega), List.getElem_range]
    refine ⟨hab.m ▸ h1, hab.r ▸ h2, rats_emb hab.q h4, by simpa using hq, List.range m, fun k => (q.map ((↑) : ℚ → ℝ)).getD k 0,
      fun k => (q.map ((↑) : ℚ → ℝ)).getD k 0, hab.order ▸ h3, List.Perm.refl _, get _ (rats_emb hab.qo h5), get _ (rats_emb hab.uo h6), get _ (rats_emb hab.lo h7), ?_⟩
    intro k i _ _ hb
    obtain rfl : k = i := by
      unfold inB at hb
      omega
    exact ⟨le_rfl, le_rfl⟩

/-- The data, a single window. -/
abbrev data4 : List ℝ := [1, 1, 0, 0]

theorem zw4 : znorm [1, 1, 0, 0] = [1, 1, -1, -1] :=
  znorm_of (a := 1 / 2) (d := 1 / 2) (by norm_num [average]) (by norm_num) (by norm_num) (by norm_num)

theorem varies_w4 : Varies [1, 1, 0, 0] := ⟨0, by simp, 1, by simp, by norm_num⟩

theorem short_run {N : ℕ} (hN : 4 ≤ N) (hdot : N - 4 + 1 ≤ 1000000) {junk : Ex} {query q : List ℝ} {L : ℝ} (hq : q.length = 4)
    (hp : (prepare junk ((List.range 4).map Int.ofNat) (fins query) (4 : ℕ) (0 : ℕ)).Ensures fun Q => QueryOk Q 4 0 q)
    (hL : IsLeast (warpCosts 0 [1, 1, -1, -1] q) L) (hbig : L < 10 ^ 20)
    (hk : ends0 [1, 1, -1, -1] q + front1 [1, 1, -1, -1] q + back1 [1, 1, -1, -1] q + front2 [1, 1, -1, -1] q + back2 [1, 1, -1, -1] q < 10 ^ 20) :
    calculateWith N junk ((List.range 4).map Int.ofNat) (fins data4) (fins query) (4 : ℕ) (0 : ℕ) = .ok (0, F.fin L, 4) := by
  obtain ⟨Q, hp, hQ⟩ := hp
  obtain ⟨loc, v, h1, h2⟩ := search_spec (data := data4)
    (G := fun p v loc => loc = 0 ∧ v = if p = 0 then 10 ^ 20 else L) hQ.hm hQ.hr (by omega) ⟨rfl, by simp⟩ (by
      intro p hp4
      obtain rfl : p = 0 := by
        simp at hp4
        omega
      have ew : windowAt data4 0 4 = [1, 1, 0, 0] := rfl
      rw [ew]
      rintro s j off lBuff uBuff Lb Ub v hs hLb hUb ht hl hu hLU hv ⟨hloc, rfl⟩
      rw [if_pos rfl] at hv
      refine (candidate_core hQ (by omega) rfl varies_w4 hs hLb hUb ht hl hu hLU hv le_rfl (by rw [zw4]; exact hL) ?_).mono ?_
      · refine (lbKim_spec (by rw [znorm_length]; rfl) hq (by omega) (holds_window rfl varies_w4 ht) _).mono ?_
        rintro _ ⟨x, rfl, hx⟩
        refine ⟨x, rfl, Or.inl (hx.trans_lt ?_)⟩
        rw [zw4]
        exact hk
      · rintro s' ⟨h0, ⟨_, h2, h3⟩ | ⟨h1, _⟩⟩
        · exact ⟨h0, L, h2, by simpa using h3, by simp⟩
        · exact absurd h1 (not_le.mpr hbig)) (by omega) hN hdot hp
  obtain ⟨rfl, rfl⟩ := h2
  rw [h1]
  simp

theorem short_zero {N : ℕ} (hN : 4 ≤ N) (hdot : N - 4 + 1 ≤ 1000000) :
    calculateWith N (F.fin 0 : Ex) ((List.range 4).map Int.ofNat) (fins data4) (fins [1, 1, 0]) (4 : ℕ) (0 : ℕ) = .ok (0, F.fin 0, 4) := by
  have hp := prepare_ran (j := 0) (f := [1, 1, 0]) (q := [1, 1, -1, -1]) (m := 4) rfl (by decide +kernel)
  norm_num at hp
  refine short_run (q := [1, 1, -1, -1]) hN hdot rfl (by exact_mod_cast hp) ?_ (by norm_num) ?_
  · have h := dp_isLeast (r := 0) [1, 1, -1, -1] [1, 1, -1, -1] (by unfold inB; simp)
    convert h using 1
    norm_num [dp, ecost, inB, List.getD]
  · norm_num [ends0, front1, back1, front2, back2, sq, List.getD]

theorem short_one {N : ℕ} (hN : 4 ≤ N) (hdot : N - 4 + 1 ≤ 1000000) :
    calculateWith N (F.fin 1 : Ex) ((List.range 4).map Int.ofNat) (fins data4) (fins [1, 1, 0]) (4 : ℕ) (0 : ℕ) = .ok (0, F.fin 4, 4) := by
  have hp := prepare_ran (j := 1) (f := [1, 1, 0]) (q := [1, 1, -1, 1]) (m := 4) rfl (by decide +kernel)
  norm_num at hp
  refine short_run (q := [1, 1, -1, 1]) hN hdot rfl (by exact_mod_cast hp) ?_ (by norm_num) ?_
  · have h := dp_isLeast (r := 0) [1, 1, -1, -1] [1, 1, -1, 1] (by unfold inB; simp)
    convert h using 1
    norm_num [dp, ecost, inB, List.getD]
  · norm_num [ends0, front1, back1, front2, back2, sq, List.getD]

end Onex
