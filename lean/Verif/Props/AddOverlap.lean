import Verif.Props.SeriesObj
import Verif.Proofs.AddOverlap
import Verif.Proofs.Flt

/-!
# C48 for overlapping windows: what `+=` computes, and exactly when it is right
-/

namespace Onex
open Store DataT

/-- C48: if the window of the second series begins `d` cells before that of the first, in the same buffer, `+=` adds its own results: from
the `d`-th value on, each value gets the new value `d` places before it. -/
theorem C48_overlap {α : Type} [DataT α] {ops : List (SOp α)} (hr : Respects Legal SState.init ops)
    {st : SState α} (he : SOp.run SState.init ops = .ok st) {i j : Nat} {o p : Obj α} {b d : Nat}
    (hi : st.1.Live i o) (hb : o.data = some b) (hj : st.1.Live j p) (hb' : p.data = some b)
    (hlen : p.length = o.length) (hd : o.off + o.start = p.off + p.start + d) (h0 : 0 < d) :
    ∃ s' xs ys zs, st.1.addAssign i j = .ok s' ∧ st.1.values i = .ok xs ∧ st.1.values j = .ok ys ∧ s'.values i = .ok zs ∧
      len xs = o.length ∧ len ys = o.length ∧ len zs = o.length ∧
      (∀ (q : Nat) x y, q < d → xs[q]? = some x → ys[q]? = some y → zs[q]? = some (add x y)) ∧
      (∀ (q : Nat) x z, d ≤ q → xs[q]? = some x → zs[q - d]? = some z → zs[q]? = some (add x z)) ∧
      (∀ q : Nat, d ≤ q → (q : Int) < o.length → ys[q]? = xs[q - d]?) := by
  have hinv := legal_run (P := Legal) (fun _ _ h => h) ops _ inv_init hr st he
  obtain ⟨w1, w2, ca, hca, w3⟩ := (hinv.objs i o hi).window hb
  obtain ⟨_, v2, cp, hcp, v3⟩ := (hinv.objs j p hj).window hb'
  obtain ⟨s', c', g1, g2, g3, g4, -, -, -, -⟩ := addAssign_spec hinv hi hj hb hb' hca hca hlen
  obtain ⟨s'', c'', k1, k2, k3, k4⟩ := addAssign_overlap hinv hi hj hb hb' hca hlen (by omega)
  obtain rfl : s' = s'' := by
    rw [g1, Res.ok.injEq] at k1
    exact k1
  obtain rfl : c' = c'' := g4.inj k2
  obtain ⟨xs, x1, x2, x3⟩ := values_getElem? hinv hi hb hca
  obtain ⟨ys, y1, y2, y3⟩ := values_getElem? hinv hj hb' hca
  have hl := (List.getElem?_eq_some_iff.mp hi).1
  have hi' : s'.Live i { o with cache := none } := by
    unfold Live
    rw [g2]
    simp [hl]
  obtain ⟨zs, z1, z2, z3⟩ := values_getElem? g3 hi' hb g4
  refine ⟨s', xs, ys, zs, g1, x1, y1, z1, x2, by rw [y2, hlen], z2, ?_, ?_, ?_⟩
  · intro q x y hq hx hy
    have hq' : (q : Int) < o.length := by
      have := (List.getElem?_eq_some_iff.mp hx).1
      simp only [len] at x2
      omega
    rw [z3 q hq', k4 _ (by simp only; omega)]
    have e : ((((o.off + o.start + q).toNat : Int) - (o.off + o.start)) + (p.off + p.start)).toNat = (p.off + p.start + q).toNat := by omega
    simp only [e]
    rw [k3 _ (by omega), ← x3 q hq', ← y3 q (by omega), hx, hy]
    rfl
  · intro q x z hq hx hz
    have hq' : (q : Int) < o.length := by
      have := (List.getElem?_eq_some_iff.mp hx).1
      simp only [len] at x2
      omega
    rw [z3 q hq', k4 _ (by simp only; omega)]
    have e : ((((o.off + o.start + q).toNat : Int) - (o.off + o.start)) + (p.off + p.start)).toNat = (o.off + o.start + (q - d : Nat)).toNat := by omega
    simp only [e]
    have hz' := z3 (q - d) (by simp only; omega)
    simp only at hz'
    rw [← x3 q hq', hx, ← hz', hz]
    rfl
  · intro q hq hq'
    rw [y3 q (by omega), x3 (q - d) (by omega)]
    congr 1
    omega

/-- C48: exactly when it is true, on finite values in exact arithmetic. The sum is right if the loop never reads what it wrote, and otherwise
only if the values it would read back wrongly were not changed: the second series begins with as many zeros as the windows share values. -/
theorem C48_exactly {ops : List (SOp (F Rounding.exact))} (hr : Respects Legal SState.init ops)
    {st : SState (F Rounding.exact)} (he : SOp.run SState.init ops = .ok st) {i j : Nat} {o p : Obj (F Rounding.exact)} {b : Nat}
    (hi : st.1.Live i o) (hb : o.data = some b) (hj : Usable st.1 j p) (hlen : p.length = o.length) {X Y : List ℝ}
    (hX : st.1.values i = .ok (fins X)) (hY : st.1.values j = .ok (fins Y)) :
    ∃ s', st.1.addAssign i j = .ok s' ∧
      (s'.values i = .ok (fins (List.zipWith (· + ·) X Y)) ↔
        NoOverlap o p ∨ ∀ (q : Nat) (y : ℝ), q + (o.off + o.start - (p.off + p.start)) < o.length → Y[q]? = some y → y = 0) := by
  by_cases hno : NoOverlap o p
  · obtain ⟨s', xs, ys, h1, h2, h3, h4, -⟩ := C48_add_pointwise_partial hr he hi hb hj hlen hno
    refine ⟨s', h1, fun _ => .inl hno, fun _ => ?_⟩
    rw [hX, Res.ok.injEq] at h2
    rw [hY, Res.ok.injEq] at h3
    rw [h4, ← h2, ← h3]
    unfold fins
    rw [List.zipWith_map, List.map_zipWith]
    simp
  · have hno' := hno
    unfold NoOverlap at hno'
    push Not at hno'
    obtain ⟨n1, n2, n3⟩ := hno'
    have hb' : p.data = some b := by rw [← n1, hb]
    obtain ⟨d, hd⟩ : ∃ d : Nat, o.off + o.start = p.off + p.start + d := ⟨(o.off + o.start - (p.off + p.start)).toNat, by omega⟩
    obtain ⟨s', xs, ys, zs, h1, h2, h3, h4, l1, l2, l3, r1, r2, r3⟩ := C48_overlap hr he hi hb hj.1 hb' hlen hd (by omega)
    rw [hX, Res.ok.injEq] at h2
    rw [hY, Res.ok.injEq] at h3
    subst h2 h3
    refine ⟨s', h1, ?_⟩
    rw [h4, Res.ok.injEq]
    simp only [len, fins_length] at l1 l2 l3
    have ex : ∀ q (h : q < X.length), (fins X : List (F Rounding.exact))[q]? = some (F.fin X[q]) := fun q h => by simp [fins, h]
    have ey : ∀ q (h : q < Y.length), (fins Y : List (F Rounding.exact))[q]? = some (F.fin Y[q]) := fun q h => by simp [fins, h]
    constructor
    · intro h
      refine .inr fun q y hq hy => ?_
      obtain ⟨hqY, rfl⟩ := List.getElem?_eq_some_iff.mp hy
      have ez : ∀ q (h1 : q < X.length) (h2 : q < Y.length), zs[q]? = some (F.fin (X[q] + Y[q])) := fun q h1 h2 => by
        rw [h]
        simp [fins, h1, h2]
      have t1 := r2 (q + d) _ _ (by omega) (ex (q + d) (by omega)) (by rw [Nat.add_sub_cancel]; exact ez q (by omega) hqY)
      rw [ez (q + d) (by omega) (by omega)] at t1
      have t2 := r3 (q + d) (by omega) (by omega)
      rw [ey _ (by omega), Nat.add_sub_cancel, ex q (by omega)] at t2
      simp only [Option.some.injEq, add_fin, Rounding.exact_f, F.fin.injEq] at t1 t2
      linarith
    · rintro (h | h)
      · exact absurd h hno
      · have key : ∀ q, q < o.length.toNat → zs[q]? = (fins (List.zipWith (· + ·) X Y) : List (F Rounding.exact))[q]? := by
          intro q
          induction q using Nat.strong_induction_on with
          | _ q ih =>
            intro hq
            have er : ∀ q (h1 : q < X.length) (h2 : q < Y.length),
                (fins (List.zipWith (· + ·) X Y) : List (F Rounding.exact))[q]? = some (F.fin (X[q] + Y[q])) := fun q h1 h2 => by
              simp [fins, h1, h2]
            rw [er q (by omega) (by omega)]
            by_cases hqd : q < d
            · rw [r1 q _ _ hqd (ex q (by omega)) (ey q (by omega))]
              simp
            · have t := ih (q - d) (by omega) (by omega)
              rw [er _ (by omega) (by omega)] at t
              rw [r2 q _ _ (by omega) (ex q (by omega)) t]
              have t2 := r3 q (by omega) (by omega)
              rw [ey q (by omega), ex (q - d) (by omega)] at t2
              have t3 := h (q - d) _ (by omega) (List.getElem?_eq_getElem (by omega))
              simp only [Option.some.injEq, add_fin, Rounding.exact_f, F.fin.injEq] at t2 ⊢
              rw [t2, t3]
              ring
        apply List.ext_getElem?
        intro q
        by_cases hq : q < o.length.toNat
        · exact key q hq
        · rw [List.getElem?_eq_none (by omega), List.getElem?_eq_none (by simp; omega)]

/-- Over a buffer `x, y, z`, the view `[1, 3)` and the view `[0, 2)` meet the hypotheses, one cell apart; so adding the second to the first is
right just if `x` is zero. -/
example (x y z : ℝ) : ∃ st : SState (F Rounding.exact),
    SOp.run SState.init [.newExt (fins [x, y, z]), .newView 0 0 0 1 3, .newView 0 0 0 0 2] = .ok st ∧
    ∃ s', st.1.addAssign 0 1 = .ok s' ∧ (s'.values 0 = .ok (fins [y + x, z + y]) ↔ x = 0) := by
  obtain ⟨st, hst⟩ : ∃ st : SState (F Rounding.exact),
    SOp.run SState.init [.newExt (fins [x, y, z]), .newView 0 0 0 1 3, .newView 0 0 0 0 2] = .ok st := ⟨_, rfl⟩
  have hr : Respects Legal (SState.init : SState (F Rounding.exact)) [.newExt (fins [x, y, z]), .newView 0 0 0 1 3, .newView 0 0 0 0 2] := by
    refine ⟨trivial, ⟨?_, by decide, by decide, fins [x, y, z], rfl, by simp [len]⟩, ⟨?_, by decide, by decide, fins [x, y, z], rfl, by simp [len]⟩, trivial⟩
    · exact List.mem_singleton.mpr rfl
    · exact List.mem_singleton.mpr rfl
  refine ⟨st, hst, ?_⟩
  have h1 := hst
  cases h1
  obtain ⟨s', a, c⟩ := C48_exactly (X := [y, z]) (Y := [x, y]) hr hst (i := 0) (j := 1) rfl rfl ⟨rfl, by simp⟩ rfl rfl rfl
  refine ⟨s', a, ?_⟩
  have e : List.zipWith (· + ·) [y, z] [x, y] = [y + x, z + y] := rfl
  rw [e] at c
  rw [c]
  constructor
  · rintro (h | h)
    · simp [NoOverlap] at h
    · exact h 0 x (by simp) rfl
  · rintro rfl
    refine .inr fun q w hq hw => ?_
    simp at hq
    obtain rfl : q = 0 := by omega
    simpa using hw.symm

end Onex
