import Verif.Proofs.SeriesObj

/-!
# `operator+=` on windows that overlap

`Store.addAssign_spec` covers the windows where the loop never reads what it wrote. Here the second window begins `d` cells before the first
one in the same buffer, with `0 < d`, so the loop reads its own results.
-/

namespace Onex
namespace Store
open DataT

variable {α : Type} [DataT α]

theorem addAssign_overlap {s : Store α} {ext : List Nat} (h : s.Inv ext) {i j : Nat} {o p : Obj α}
    {b : Nat} {ca : List α} (hi : s.Live i o) (hj : s.Live j p) (hbo : o.data = some b)
    (hbp : p.data = some b) (hca : s.Holds b ca) (hlen : p.length = o.length) (hd : p.off + p.start < o.off + o.start) :
    ∃ s' c', s.addAssign i j = .ok s' ∧ s'.Holds b c' ∧
      (∀ q : Nat, (q : Int) < o.off + o.start → c'[q]? = ca[q]?) ∧
      (∀ q : Nat, (o.off + o.start ≤ q ∧ (q : Int) < o.off + o.start + o.length) →
        c'[q]? = addCell ca[q]? c'[(q - (o.off + o.start) + (p.off + p.start)).toNat]?) := by
  obtain ⟨a1, a2, ca', hca', a3⟩ := (h.objs i o hi).window hbo
  obtain ⟨b1, b2, cp', hcp', b3⟩ := (h.objs j p hj).window hbp
  have e1 : ca' = ca := hca'.inj hca
  have e2 : cp' = ca := hcp'.inj hca
  subst e1
  have loop : (forInt 0 o.length s fun k s => do
      let c ← s.block o.data
      let x ← vget c (o.off + o.start + k)
      let y ← s.get j k
      s.poke o.data (o.off + o.start + k) (DataT.add x y)).Ensures fun st =>
      st.objs = s.objs ∧ ∃ c, st.Holds b c ∧ c.length = ca'.length ∧
        (∀ q : Nat, ¬ (o.off + o.start ≤ q ∧ (q : Int) < o.off + o.start + o.length) → c[q]? = ca'[q]?) ∧
        (∀ q : Nat, (o.off + o.start ≤ q ∧ (q : Int) < o.off + o.start + o.length) →
          c[q]? = addCell ca'[q]? c[(q - (o.off + o.start) + (p.off + p.start)).toNat]?) := by
    refine forInt_ensures (fun (k : Int) (st : Store α) => st.objs = s.objs ∧ ∃ c, st.Holds b c ∧ c.length = ca'.length ∧
        (∀ q : Nat, ¬ (o.off + o.start ≤ q ∧ (q : Int) < o.off + o.start + k) → c[q]? = ca'[q]?) ∧
        (∀ q : Nat, (o.off + o.start ≤ q ∧ (q : Int) < o.off + o.start + k) →
          c[q]? = addCell ca'[q]? c[(q - (o.off + o.start) + (p.off + p.start)).toNat]?)) a1 ?_ ?_
    · exact ⟨rfl, ca', hca, rfl, fun _ _ => rfl, fun q hq => by omega⟩
    · rintro k st hk1 hk2 ⟨ho, c, hc, hcl, hout, hin⟩
      have hlc : len c = len ca' := by simp only [len]; omega
      obtain ⟨x, hx, hx'⟩ := vget_ok (l := c) (i := o.off + o.start + k) (by omega) (by omega)
      have hj' : st.Live j p := by
        unfold Live
        rw [ho]
        exact hj
      obtain ⟨y, hy1, hy2⟩ := vget_ok (l := c) (i := p.off + p.start + k) (by omega) (by omega)
      have hg : st.get j k = .ok y := by
        rw [get_ok hj' hbp hc hk1 (by omega), hy1]
      obtain ⟨s', p1, p2, p3, p4⟩ := poke_ok hc (pos := o.off + o.start + k) (DataT.add x y)
        (by omega) (by omega)
      rw [block_eq_ok.mpr ⟨b, hbo, hc⟩]
      simp only [Res.bind_ok, hx, hg]
      rw [hbo, p1]
      refine ⟨s', rfl, by rw [p2, ho], _, p3, by simp [hcl], ?_, ?_⟩
      · intro q hq
        rw [List.getElem?_set_ne (by omega), hout q (by omega)]
      · intro q hq
        rw [List.getElem?_set_ne (i := (o.off + o.start + k).toNat)
          (j := (q - (o.off + o.start) + (p.off + p.start)).toNat) (by omega)]
        by_cases hqk : q = (o.off + o.start + k).toNat
        · subst hqk
          have hlt : (o.off + o.start + k).toNat < c.length := by
            simp only [len] at hlc a3 ⊢; omega
          rw [List.getElem?_set_self hlt, ← hout _ (by omega), hx']
          have e : ((((o.off + o.start + k).toNat : Int) - (o.off + o.start)) + (p.off + p.start)).toNat =
              (p.off + p.start + k).toNat := by omega
          rw [e, hy2]
          rfl
        · rw [List.getElem?_set_ne (fun he => hqk he.symm), hin q (by omega)]
  obtain ⟨st, hst, ho, c, hc, hcl, hout, hin⟩ := loop
  unfold addAssign
  rw [obj_eq_ok.mpr hi, obj_eq_ok.mpr hj]
  simp only [Res.bind_ok, hlen, ne_eq, not_true, if_false]
  rw [hst]
  simp only [Res.bind_ok, Res.pure_eq]
  exact ⟨_, c, rfl, hc, fun q hq => hout q (by omega), hin⟩

end Store
end Onex
