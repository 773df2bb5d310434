/-
Specification vocabulary for comparing random counts.
-/
import Verif.Spec.Width

namespace Verif.Plugins
open Verif MeasureTheory

variable {Ω Ω' : Type} [MeasurableSpace Ω] [MeasurableSpace Ω']

/-- The count `Y` is at least as large as `X`: whatever number is asked for, `Y` reaches it at least as often. -/
def Larger (Q : Measure Ω') (Y : Ω' → ℤ) (P : Measure Ω) (X : Ω → ℤ) : Prop := ∀ k : ℤ, P {ω | k ≤ X ω} ≤ Q {ω | k ≤ Y ω}

/-- A random count: a number that is measurable and never negative. -/
structure Count (X : Ω → ℤ) : Prop where
  measurable : Measurable X
  nonneg : ∀ ω, 0 ≤ X ω

/-- The sampler draws from the binomial distribution for the probability `p`, whatever the count. -/
def Binomially (P : Measure Ω) (b : Ω → Binomial) (p : ℝ) : Prop := ∀ N, BinomialSampler P b N p

end Verif.Plugins
