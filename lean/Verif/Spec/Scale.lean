/-
Vocabulary for C147: the total numbers of events observed and expected, and fits of a single rate.
-/
import Verif.Spec.Peak

namespace Verif.Llh
open Verif Comp

/-- The number of data events in the bins of all likelihoods. -/
noncomputable def observedAll {K : Type} (fs : List (Fitted K)) : ℝ := (fs.map (fun f => observed f.bins f.data)).sum

/-- The number of events expected in the bins of all likelihoods at the rates of `q`. -/
noncomputable def expectedAll {K : Type} (q : PyDict String ℝ) (fs : List (Fitted K)) (sss : List (List (Sample ℝ))) : ℝ :=
  (List.zipWith (fun f ss => ((binList f.bins).map (atRates ss (ratesOf f.parts (replaceAlias f.setup.al q)))).sum) fs sss).sum

/-- The rates of `q` are those of `q0` times `u`. -/
def Scaled {K : Type} (u : ℝ) (fs : List (Fitted K)) (q0 q : PyDict String ℝ) : Prop :=
  ∀ f ∈ fs, ratesOf f.parts (replaceAlias f.setup.al q) = (ratesOf f.parts (replaceAlias f.setup.al q0)).map (u * ·)

/-- The likelihood has one component, and `n` is its rate. -/
def OneRate {K : Type} (n : String) (f : Fitted K) : Prop := f.setup.al = [] ∧ ∃ p, f.parts = [p] ∧ p.name ++ "_rate" = n

end Verif.Llh
