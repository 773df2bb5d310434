/-
Specification vocabulary for efficiencies: decisions that accept each event with the probability that its efficiency is.
-/
import Verif.Spec.Limit

namespace Verif.Llh
open Verif MeasureTheory ProbabilityTheory

/-- Each of `n` events is accepted (1) or rejected (0), with the probabilities `W k` and pairwise independently. -/
structure Decisions {Ω : Type} [MeasurableSpace Ω] (P : Measure Ω) (n : Nat) (W : Nat → ℝ) (A : Nat → Ω → ℝ) : Prop where
  meas : ∀ k < n, Measurable (A k)
  zero_or_one : ∀ k < n, ∀ ω, A k ω = 0 ∨ A k ω = 1
  prob : ∀ k < n, ∫ ω, A k ω ∂P = W k
  indep : ∀ i < n, ∀ j < n, i ≠ j → IndepFun (A i) (A j) P

open Classical in
/-- The decision of a uniform number: accept below the efficiency. -/
noncomputable def acceptBelow (w u : ℝ) : ℝ := if u < w then 1 else 0

end Verif.Llh
