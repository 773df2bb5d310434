/-
Specification vocabulary for the plots.
-/
import Verif.Model.Plot

namespace Verif.Plot
open Verif

/-- The sum of lagged products of the deviations from the mean: the direct autocovariance sum at lag `m`. -/
noncomputable def lagSum (x : List ℝ) (m : Nat) : ℝ :=
  ∑ j ∈ Finset.range (x.length - m), (x.getD j 0 - mean x) * (x.getD (j + m) 0 - mean x)

/-- The autocorrelation at lag `k`, averaged over the walkers. -/
noncomputable def rhoBar (y : List (List ℝ)) (k : Nat) : ℝ :=
  (y.map (fun row => lagSum row k / lagSum row 0)).sum / y.length

/-- The integrated autocorrelation time with window `w`. -/
noncomputable def tau (y : List (List ℝ)) (w : Nat) : ℝ := 1 + 2 * ∑ k ∈ Finset.range w, rhoBar y (k + 1)

/-- The mean of an array over some of its axes: on an axis with `none` the index is given, on an axis with `some s`
the values at the bins in `s` are averaged. -/
noncomputable def meanOver : List (Option (List Nat)) → List Nat → (List Nat → ℝ) → ℝ
  | [], idx, f => f idx
  | none :: ss, [], f => meanOver ss [] f
  | none :: ss, i :: idx, f => meanOver ss idx (fun l => f (i :: l))
  | some s :: ss, idx, f => (s.map (fun i => meanOver ss idx (fun l => f (i :: l)))).sum / s.length

/-- The positions of the nodes of an axis with `n` bins, equally spaced or equally spaced in the logarithm. -/
noncomputable def axisCenters (ax : Axis) (n : Nat) : List ℝ :=
  if ax.isLog then (Interp.linspace (Real.logb 10 ax.lower) (Real.logb 10 ax.upper) n).map (fun x => (10 : ℝ) ^ x)
  else Interp.linspace ax.lower ax.upper n

/-- What a collapse request says about the axes of a map of the given shape: an axis whose name is requested is
averaged over the bins selected by the request, the others are kept. -/
noncomputable def requested (collapse : PyDict String (Option (ℝ × ℝ))) (axes : List Axis) (shape : List Nat) :
    List (Option (List Nat)) :=
  List.zipWith (fun (ax : Axis) n => (collapse.get? ax.name).map (selectBins (axisCenters ax n))) axes shape

end Verif.Plot
