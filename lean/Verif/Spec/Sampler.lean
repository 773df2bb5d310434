/-
Specification vocabulary for the laws of the samplers: a source of ideal draws, the skew-normal law.
-/
import Verif.Spec.Randgen
import Mathlib.Probability.Distributions.Gamma
import Mathlib.Probability.Distributions.Gaussian.Real

namespace Verif.Randgen
open Verif MeasureTheory ProbabilityTheory

variable {Ω : Type} [MeasurableSpace Ω] {m : Nat}

/-- What `jax.random` promises of one element of an array: uniform numbers on [0,1), standard normal numbers that are independent for
different keys, gamma numbers of rate one, Bernoulli draws with the given probability. -/
structure IdealSource (P : Measure Ω) (r : Ω → Rng m) : Prop where
  uniform_meas : ∀ k i, Measurable (fun ω => (r ω).uniform k i)
  uniform_law : ∀ k i, P.map (fun ω => (r ω).uniform k i) = volume.restrict (Set.Ico (0 : ℝ) 1)
  normal_meas : ∀ k i, Measurable (fun ω => (r ω).normal k i)
  normal_law : ∀ k i, P.map (fun ω => (r ω).normal k i) = gaussianReal 0 1
  normal_indep : ∀ k k' i, k ≠ k' → IndepFun (fun ω => (r ω).normal k i) (fun ω => (r ω).normal k' i) P
  gamma_meas : ∀ k a i, Measurable (fun ω => (r ω).gamma k a i)
  gamma_law : ∀ k a i, 0 < a i → P.map (fun ω => (r ω).gamma k a i) = gammaMeasure (a i) 1
  bernoulli_meas : ∀ k p i, Measurable (fun ω => (r ω).bernoulli k p i)
  bernoulli_law : ∀ k p i, 0 ≤ p i → p i ≤ 1 → P {ω | (r ω).bernoulli k p i = true} = ENNReal.ofReal (p i)

/-- The standard normal distribution function. -/
noncomputable def normalCdf (x : ℝ) : ℝ := (gaussianReal 0 1).real (Set.Iic x)

/-- The density of the skew-normal law with skewness `a`, location `loc` and scale `scale`. -/
noncomputable def skewDensity (a loc scale x : ℝ) : ℝ :=
  2 / scale * gaussianPDFReal 0 1 ((x - loc) / scale) * normalCdf (a * ((x - loc) / scale))

/-- The normal law with mean `mean` and width `std`, conditioned to lie between `lo` and `hi`: the truncated normal law. -/
noncomputable def truncatedLaw (mean std lo hi : ℝ) : Measure ℝ :=
  ((gaussianReal mean (.mk (std ^ 2) (sq_nonneg std))) (Set.Icc lo hi))⁻¹ • (gaussianReal mean (.mk (std ^ 2) (sq_nonneg std))).restrict (Set.Icc lo hi)

end Verif.Randgen
