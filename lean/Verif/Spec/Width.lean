/-
Specification vocabulary for the fluctuations of the signals: Poisson distributed numbers.
-/
import Verif.Spec.Counts

namespace Verif.Plugins
open Verif MeasureTheory

variable {Ω : Type} [MeasurableSpace Ω]

/-- The number `X` is Poisson distributed with the mean `mu`. -/
structure PoissonCount (P : Measure Ω) (X : Ω → ℤ) (mu : ℝ) : Prop where
  measurable : Measurable X
  nonneg : ∀ ω, 0 ≤ X ω
  law : ∀ k : Nat, P {ω | X ω = k} = ENNReal.ofReal (Real.exp (-mu) * mu ^ k / k.factorial)

/-- The sampler draws from the Poisson distribution, for every mean. -/
def PoissonSampler (P : Measure Ω) (q : Ω → Poisson) : Prop := ∀ mu, 0 ≤ mu → PoissonCount P (fun ω => q ω (.fin mu)) mu

end Verif.Plugins
