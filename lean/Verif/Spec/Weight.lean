/- Specification vocabulary for weighted samples: independent of the model. -/
import Mathlib.Algebra.BigOperators.Group.List.Basic

namespace Verif.Hist

variable {W : Type*} [AddCommMonoid W]

/-- Total weight of the samples satisfying a predicate. -/
def weightOf {S : Type*} (p : S → Prop) [DecidablePred p] (sw : List (S × W)) : W :=
  ((sw.filter (fun e => decide (p e.1))).map Prod.snd).sum

end Verif.Hist
