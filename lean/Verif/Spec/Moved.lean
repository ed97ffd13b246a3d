import Verif.Spec.Made
import Verif.Spec.GroupFile

/-!
# Groups that are searched and moved through files
-/

namespace Onex.Spec

variable {α : Type} [DataT α]

/-- The states that have the groups of `s₁`, whose dataset holds the rows `R`: `s₁` itself, after searches, and after the
groups were saved and loaded into a set with the same rows. The flag tells whether the number of moves is odd. -/
inductive Carried (io : NumIO α) (L : Nat) (R : List (List α)) (s₁ : GSet α) : Bool → GSet α → Prop where
  | made : Carried io L R s₁ false s₁
  | matched {b s} (env : Env α) (hs : Carried io L R s₁ b s) (hb : BandNN env.ratio) (x : List α) :
      Carried io L R s₁ b (s.getBestMatch env (Series.mk' x)).2
  | moved {b s} {env : Env α} {text} {t : GSet α} {n t'} (hs : Carried io L R s₁ b s) (hio : env.io = io)
      (hsave : s.saveGroups env true false = .ok text) (ht : t.ds.Holds L R)
      (hload : t.loadGroups env (some text) = (.ok n, t')) : Carried io L R s₁ (!b) t'

/-- Two outcomes of a search: the same failure, or the same distance and the same window. (The views may differ in what
memory they point to.) -/
def SameOutcome : Res (Cand α) → Res (Cand α) → Prop
  | .ok c, .ok c' => c.dist = c'.dist ∧ c.ts.index = c'.ts.index ∧ c.ts.start = c'.ts.start ∧ c.ts.stop = c'.ts.stop
  | .throw e, .throw e' => e = e'
  | .ub w, .ub w' => w = w'
  | _, _ => False

end Onex.Spec
