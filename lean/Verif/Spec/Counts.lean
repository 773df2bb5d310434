/-
Specification vocabulary for the counts of an event: binomially distributed numbers and samplers of such numbers.
-/
import Verif.Spec.Signals

namespace Verif.Plugins
open Verif MeasureTheory

variable {Ω : Type} [MeasurableSpace Ω]

/-- The probability of `k` successes in `n` independent trials that succeed with probability `p`. -/
noncomputable def binomialMass (n : Nat) (p : ℝ) (k : Nat) : ℝ := n.choose k * p ^ k * (1 - p) ^ (n - k)

/-- The number `X` is distributed like the successes in `n` independent trials that succeed with probability `p`. -/
structure BinomialCount (P : Measure Ω) (X : Ω → ℤ) (n : Nat) (p : ℝ) : Prop where
  measurable : Measurable X
  range : ∀ ω, 0 ≤ X ω ∧ X ω ≤ n
  law : ∀ k : Nat, P {ω | X ω = k} = ENNReal.ofReal (binomialMass n p k)

/-- For the probability `p` the sampler draws from the binomial distribution, for every count up to `N`. -/
def BinomialSampler (P : Measure Ω) (b : Ω → Binomial) (N : Nat) (p : ℝ) : Prop :=
  ∀ n : Nat, n ≤ N → BinomialCount P (fun ω => b ω (.fin p) n) n p

/-- The photons and the electrons of an electronic recoil with `n` quanta and the recombination `r`, for given samplers. -/
noncomputable def splitER (b1 b2 : Binomial) (ratio r : ℝ) (n : ℤ) : ℤ × ℤ :=
  recombinationER b2 n (ionizationER b1 (.fin ratio) n) (.fin r)

end Verif.Plugins
