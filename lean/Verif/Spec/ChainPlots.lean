/-
Specification vocabulary for the plots of the chain.
-/
import Verif.Spec.Plot
import Verif.Model.ChainPlots

namespace Verif.Plot
open Verif

/-- The value of parameter `i` of walker `w` in iteration `k` of the chain. -/
def position (chain : List (List (List ℝ))) (k w i : Nat) : ℝ := ((chain.getD k []).getD w []).getD i 0

/-- In the first `n` iterations parameter `i` of walker `w` took different values. -/
def Moved (chain : List (List (List ℝ))) (n w i : Nat) : Prop :=
  ∃ k l, k < n ∧ l < n ∧ k < chain.length ∧ l < chain.length ∧ position chain k w i ≠ position chain l w i

/-- The sequences of parameter `i` of all walkers in the first `n` iterations. -/
def sequences (walkers : Nat) (chain : List (List (List ℝ))) (n i : Nat) : List (List ℝ) :=
  (List.range walkers).map (fun w => (List.range n).map (fun k => position chain k w i))

/-- `t` is the integrated autocorrelation time of the sequences of length `n`: the autocorrelation, averaged over the walkers, is
summed up to the first lag that is at least five times the sum. -/
def IsTime (y : List (List ℝ)) (n : Nat) (t : ℝ) : Prop :=
  ∃ w, 1 ≤ w ∧ w < n ∧ t = tau y w ∧ 5 * t ≤ w ∧ ∀ i < w, (i : ℝ) < 5 * tau y i

/-- The covariance of two columns of samples, up to the normalisation. -/
noncomputable def coSum (x y : List ℝ) : ℝ := ((x.zip y).map (fun e => (e.1 - mean x) * (e.2 - mean y))).sum

/-- The correlation coefficient of two columns of samples. -/
noncomputable def correlation (x y : List ℝ) : ℝ := coSum x y / Real.sqrt (coSum x x * coSum y y)

/-- What is shown in column `c` of the corner plot of `n` parameters: a parameter, the log posterior or the log prior, one number for
each sample. -/
noncomputable def shown (n : Nat) (flat : List (List ℝ)) (post prior : List ℝ) (c : Nat) : List ℝ :=
  if c < n then flat.map (fun p => p.getD c 0) else if c = n then post else prior

/-- A column takes different values. -/
def Varies (x : List ℝ) : Prop := ∃ a ∈ x, ∃ b ∈ x, a ≠ b

end Verif.Plot
