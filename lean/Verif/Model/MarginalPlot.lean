/-
Model of the marginal plot of a fit, `appletree/plot.py` 174-226.  Drawing itself is not modelled: a panel is what is drawn in it.

`ax.hist(x, bins=n, density=True)` is `np.histogram` with `n` bins of equal width between the smallest and the largest sample, half a
unit below and above the sample if all are equal, from 0 to 1 if there is none; a bin holds its lower edge, the last one both.  With
`density` the counts are divided by the width and by their sum, which without a sample is nan.  The samples are finite.
-/
import Verif.Model.PriorPlot
import Verif.Model.Interp
import Mathlib.Data.Real.Basic

namespace Verif.Plot
open Verif Parameter

/-- The outer edges of the bins (plot.py 204). -/
noncomputable def outerEdges (xs : List ℝ) : ℝ × ℝ :=
  open Classical in
  match xs.min?, xs.max? with
  | some a, some b => if a = b then (a - 1 / 2, b + 1 / 2) else (a, b)
  | _, _ => (0, 1)

/-- The edges of `n` bins (plot.py 204). -/
noncomputable def barEdges (n : Nat) (xs : List ℝ) : List ℝ := Interp.linspace (outerEdges xs).1 (outerEdges xs).2 (n + 1)

/-- The samples in bin `j` of `n` (plot.py 204). -/
noncomputable def barCount (n : Nat) (es xs : List ℝ) (j : Nat) : Nat :=
  open Classical in
  xs.countP (fun x => decide (es.getD j 0 ≤ x ∧ (x < es.getD (j + 1) 0 ∨ (j + 1 = n ∧ x ≤ es.getD (j + 1) 0))))

/-- The heights of the bars (plot.py 204); `none` is nan. -/
noncomputable def barHeights (n : Nat) (xs : List ℝ) : List (Option ℝ) :=
  let es := barEdges n xs
  let counts := (List.range n).map (barCount n es xs)
  (List.range n).map (fun j =>
    if counts.sum = 0 then none
    else some ((barCount n es xs j : ℝ) / (es.getD (j + 1) 0 - es.getD j 0) / (counts.sum : ℝ)))

/-- A panel: the number of rows and columns of the grid and its place in it (from 1), the name at the abscissa, the edges and the
heights of the bars, and the curve of the prior. -/
structure MarginPanel where
  grid : Nat × Nat
  place : Nat
  name : String
  edges : List ℝ
  heights : List (Option ℝ)
  prior : Option Curve

/-- The figure with the entries of its legend. -/
structure MarginPlot where
  panels : List MarginPanel
  legend : List String

/-- The labels in a panel, `get_legend_handles_labels` (plot.py 204, 210, 218). -/
def MarginPanel.labels (p : MarginPanel) : List String := "Posterior" :: (if p.prior.isSome then ["Prior"] else [])

/-- `n_rows = int(np.ceil(self.n_param / n_cols))` with two columns (plot.py 185-186). -/
def marginRows (nParam : Nat) : Nat := (nParam + 1) / 2

/-- `self.flat_chain[:, i]` (plot.py 204). -/
def column (flat : List (List ℝ)) (i : Nat) : List ℝ := flat.map (fun row => row.getD i 0)

/-- The loop over the parameters (plot.py 201-215) for one parameter.  `np.histogram` refuses to make no bins. -/
noncomputable def marginPanel (sig : Solver) (config : Config) (bins nParam : Nat) (flat : List (List ℝ)) (i : Nat) (name : String) :
    Res MarginPanel := do
  if bins = 0 then throw .valueError
  let curve ← marginalCurve sig config name
  return ⟨(marginRows nParam, 2), i + 1, name, barEdges bins (column flat i), barHeights bins (column flat i), curve⟩

/-- `plot_marginal_posterior` (plot.py 174-226), by default with 50 bins (plot.py 191). -/
noncomputable def plotMarginalPosterior (sig : Solver) (config : Config) (names : List String) (flat : List (List ℝ)) (bins : Nat := 50) :
    Res MarginPlot := do
  let panels ← names.zipIdx.mapM (fun e => marginPanel sig config bins names.length flat e.2 e.1)
  match panels.getLast? with
  | none => .error .indexError
  | some p => return ⟨panels, p.labels⟩

end Verif.Plot
