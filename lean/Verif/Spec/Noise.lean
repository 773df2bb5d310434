/-
Specification vocabulary for the noise of the simulation: the Poisson log likelihood of a prediction, and the prediction
averaged over repeated simulations.
-/
import Verif.Spec.Flow

namespace Verif.Llh
open Verif Comp

/-- The mean of `g 0`, …, `g (n - 1)`. -/
noncomputable def meanOf (n : Nat) (g : Nat → ℝ) : ℝ := ((List.range n).map g).sum / n

/-- The binned Poisson log likelihood of the data if `m` events are expected in each bin, up to the term that only depends on
the data. -/
noncomputable def predictedLogL (bins : Bins ℝ) (data : List (List (Option ℝ))) (m : Nat × Nat → ℝ) : ℝ :=
  ((binList bins).map (fun b => countIn bins data b * Real.log (m b) - m b)).sum

/-- The events that repetition `i` expects in a bin of the likelihood number `k`. -/
noncomputable def expectedAt (sss : Nat → List (List (Sample ℝ))) (k i : Nat) (b : Nat × Nat) : ℝ :=
  expectedIn ((sss i).getD k []) b

/-- The log likelihood of all data sets, each at the prediction averaged over the `n` repetitions. -/
noncomputable def logLAtMean {K : Type} (n : Nat) (fs : List (Fitted K)) (sss : Nat → List (List (Sample ℝ))) : ℝ :=
  (fs.zipIdx.map (fun fk => predictedLogL fk.1.bins fk.1.data (fun b => meanOf n (fun i => expectedAt sss fk.2 i b)))).sum

/-- All repetitions expect the same in every bin that holds data. -/
def NoNoise {K : Type} (n : Nat) (fs : List (Fitted K)) (sss : Nat → List (List (Sample ℝ))) : Prop :=
  ∀ fk ∈ fs.zipIdx, ∀ b ∈ binList fk.1.bins, 0 < countIn fk.1.bins fk.1.data b →
    ∀ i < n, ∀ j < n, expectedAt sss fk.2 i b = expectedAt sss fk.2 j b

end Verif.Llh
