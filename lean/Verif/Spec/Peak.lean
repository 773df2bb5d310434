/-
Specification vocabulary for the posterior as a function of the rates: sets of parameters on the straight line between two
others.
-/
import Verif.Spec.Rates
import Verif.Model.Parameter

namespace Verif.Llh
open Verif Comp

/-- `q` has the names of `q1` and `q2`, each with the mean of the two values with weights `t` and `1 - t`. -/
structure Between (t : ℝ) (q1 q2 q : PyDict String ℝ) : Prop where
  names : ∀ k, q1.get? k = none ↔ q2.get? k = none
  absent : ∀ k, q1.get? k = none → q.get? k = none
  value : ∀ k a b, q1.get? k = some a → q2.get? k = some b → q.get? k = some (t * a + (1 - t) * b)

/-- A prior that prefers some values to others. -/
def Curved : Parameter.Prior → Prop
  | .norm _ _ => True
  | .twohalfnorm _ _ _ => True
  | _ => False

/-- The sum of the log likelihoods at the rates of `q`. -/
noncomputable def logLAll {K : Type} (q : PyDict String ℝ) (fs : List (Fitted K)) (sss : List (List (Sample ℝ))) : ℝ :=
  (List.zipWith (fun f ss => logLAtRates f.bins f.data ss (ratesOf f.parts (replaceAlias f.setup.al q))) fs sss).sum

/-- Every bin of every likelihood expects events at the rates of `q`. -/
def AllPositive {K : Type} (q : PyDict String ℝ) (fs : List (Fitted K)) (sss : List (List (Sample ℝ))) : Prop :=
  List.Forall₂ (fun f ss => ∀ b ∈ binList f.bins, 0 < atRates ss (ratesOf f.parts (replaceAlias f.setup.al q)) b) fs sss

/-- The same number of events is expected at `q1` and `q2` from the samples of each likelihood, in every bin that holds data. -/
def SamePrediction {K : Type} (q1 q2 : PyDict String ℝ) (fs : List (Fitted K)) (sss : List (List (Sample ℝ))) : Prop :=
  List.Forall₂ (fun f ss => ∀ b ∈ binList f.bins, 0 < countIn f.bins f.data b →
    atRates ss (ratesOf f.parts (replaceAlias f.setup.al q1)) b = atRates ss (ratesOf f.parts (replaceAlias f.setup.al q2)) b)
    fs sss

end Verif.Llh
