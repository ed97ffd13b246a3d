import Verif.Proofs.Basic

/-!
# A partial-correctness rule for loops

If the loop ended normally, then an invariant kept by every iteration that ended normally holds.
-/

namespace Onex

theorem forIntGo_okInv {σ : Type} {body : Int → σ → Res σ} (I : Int → σ → Prop) :
    ∀ (k : Nat) (i : Int) (s s' : σ), I i s →
      (∀ j s s', i ≤ j → j < i + k → I j s → body j s = .ok s' → I (j + 1) s') →
      forIntGo body k i s = .ok s' → I (i + k) s'
  | 0, i, s, s', h0, _, e => by
    simp only [forIntGo, Res.ok.injEq] at e
    subst e
    simpa using h0
  | k + 1, i, s, s', h0, hs, e => by
    unfold forIntGo at e
    obtain ⟨t, h1, h2⟩ := Res.bind_eq_ok.mp e
    have := forIntGo_okInv I k (i + 1) t s' (hs i s t (le_refl _) (by omega) h0 h1)
      (fun j s s' a b c d => hs j s s' (by omega) (by omega) c d) h2
    have e : i + 1 + (k : Int) = i + ((k + 1 : Nat) : Int) := by omega
    rwa [e] at this

theorem forInt_okInv {σ : Type} {lo hi : Int} {s s' : σ} {body : Int → σ → Res σ}
    (I : Int → σ → Prop) (hle : lo ≤ hi) (h0 : I lo s)
    (hs : ∀ j s s', lo ≤ j → j < hi → I j s → body j s = .ok s' → I (j + 1) s')
    (e : forInt lo hi s body = .ok s') : I hi s' := by
  have := forIntGo_okInv (body := body) I (hi - lo).toNat lo s s' h0
    (fun j s s' h1 h2 h3 h4 => hs j s s' h1 (by omega) h3 h4) e
  have e : lo + ((hi - lo).toNat : Int) = hi := by omega
  rwa [e] at this

end Onex
