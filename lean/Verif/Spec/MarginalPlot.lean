/-
Specification vocabulary for the marginal plot.
-/
import Verif.Model.MarginalPlot

namespace Verif.Plot
open Verif

open Classical in
/-- The number of samples in an interval that holds its lower end, and its upper end if it is `closed`. -/
noncomputable def samplesIn (xs : List ℝ) (lo hi : ℝ) (closed : Prop) : Nat :=
  (xs.filter (fun x => decide (lo ≤ x ∧ (x < hi ∨ (closed ∧ x = hi))))).length

/-- The area of bars of equal width. -/
noncomputable def barArea (width : ℝ) (heights : List ℝ) : ℝ := (heights.map (width * ·)).sum

end Verif.Plot
