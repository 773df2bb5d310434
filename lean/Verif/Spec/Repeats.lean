/-
Vocabulary for C146: the log posterior for one repeat, and the density a fit samples.
-/
import Verif.Spec.Walk
import Mathlib.Probability.ProductMeasure

namespace Verif.Repeats
open Verif MeasureTheory
open scoped ENNReal

variable {K : Type}

/-- `W` is the log posterior at some parameters for one repeat, as a function of the key. -/
def OneRepeat (W : K → ℝ) (c : Ctx.Ctx K) (sig : Parameter.Solver) (order : List String) (params : Parameter.Keys) (batch : Int) (lp : XF) : Prop :=
  ∀ keys, (Ctx.logPosterior sig order keys c params batch 1).2 = .ok (.fin (W (keys 0)), lp)

variable [MeasurableSpace K]

/-- The posterior density averaged over the keys, which is what a fit samples (C115). -/
noncomputable def sampled (ρ : Measure K) [IsProbabilityMeasure ρ] (c : Ctx.Ctx K) (sig : Parameter.Solver) (order : List String)
    (params : Parameter.Keys) (batch : Int) (n : Nat) : ℝ≥0∞ :=
  ∫⁻ keys, Walk.densityOf (Walk.valueOf (Ctx.logPosterior sig order keys c params batch n).2) ∂(Measure.infinitePi fun _ : Nat => ρ)

end Verif.Repeats
