/-
Model of the autocorrelation plot, `appletree/plot.py` 283-366, and of the corner plot, plot.py 228-281.  Drawing itself is not
modelled: a panel is what is drawn in it.

Two libraries are called.  `np.geomspace(a, b, 10)` starts with `a`, ends with `b`, and raises a ValueError if one of them is 0; the
eight numbers in between are an argument.  `corner.corner` asserts that there are at least as many samples as columns and raises a
ValueError if all samples of a column are equal; otherwise it draws.
-/
import Verif.Model.Plot
import Verif.Model.PriorPlot

namespace Verif.Plot
open Verif

/-! ### Autocorrelation plot -/

/-- `self.chain[:, :, i].T[w, :n]` (plot.py 340, 343); `chain` holds for each iteration and walker the values of the parameters. -/
def walkerRow (chain : List (List (List ℝ))) (i n w : Nat) : List ℝ := (chain.take n).map (fun it => (it.getD w []).getD i 0)

/-- `self.chain[:, :, i].T[:, :n]` (plot.py 340, 343). -/
def walkerRows (walkers : Nat) (chain : List (List (List ℝ))) (i n : Nat) : List (List ℝ) :=
  (List.range walkers).map (walkerRow chain i n)

/-- `autocorr_new(y)` (plot.py 325-332) for rows of length `n`: without an iteration `acf[0]` is an IndexError; a row whose `acf[0]`
is 0 gives nan at every lag, hence everywhere. -/
noncomputable def autocorrTime (n : Nat) (y : List (List ℝ)) : Res XF :=
  open Classical in
  if n = 0 then .error .indexError
  else if ∃ row ∈ y, (autocorrRaw row).getD 0 0 = 0 then .ok .nan
  else match autocorrNew n y 5 with
    | none => .error .indexError
    | some t => .ok (.fin t)

/-- A panel of the plot: its place in the grid (from 1), the parameter in its label, the points of the estimate and of the line to
compare with. -/
structure AutoPanel where
  place : Nat
  name : String
  times : List (Nat × XF)
  line : List (Nat × ℝ)

/-- The figure: the number of rows of the grid, whether there is a warning, the panels, and the panels with a label at the abscissa. -/
structure AutoPlot where
  rows : Nat
  warned : Bool
  panels : List AutoPanel
  labelled : List Nat

/-- `min_autocorr_time` (plot.py 20). -/
def minAutocorrTime : Nat := 100

/-- `N = np.geomspace(self.min_autocorr_time, self.n_iter, 10).astype(int)` (plot.py 337). -/
def lengths (inner : List Nat) (nIter : Nat) : Res (List Nat) :=
  if nIter = 0 then .error .valueError else .ok (minAutocorrTime :: inner ++ [nIter])

/-- The loop over the parameters (plot.py 339-351) for one parameter. -/
noncomputable def autoPanel (thin walkers : Nat) (chain : List (List (List ℝ))) (ns : List Nat) (i : Nat) (name : String) : Res AutoPanel := do
  let ts ← ns.mapM (fun n => autocorrTime (min n chain.length) (walkerRows walkers chain i n))
  return ⟨i + 1, name, (ns.map (· * thin)).zip ts, ns.map (fun n => (n * thin, ((n * thin : Nat) : ℝ) / 50))⟩

/-- `plot_autocorr` (plot.py 283-366); `axes[-1]` and `axes[-2]` (353-355) are IndexErrors if there are not so many. -/
noncomputable def plotAutocorr (thin walkers : Nat) (names : List String) (inner : List Nat) (chain : List (List (List ℝ))) :
    Res AutoPlot := do
  let ns ← lengths inner chain.length
  let panels ← (names.zipIdx).mapM (fun e => autoPanel thin walkers chain ns e.2 e.1)
  if panels.length < 2 then .error .indexError
  else return ⟨(names.length + 1) / 2, decide (chain.length < 1000), panels, [panels.length - 1, panels.length - 2]⟩

/-! ### Corner plot -/

/-- A column of `np.cov`: the sum of the products of the deviations, over the number of samples less one. -/
noncomputable def cov (x y : List ℝ) : ℝ :=
  ((x.zip y).map (fun e => (e.1 - mean x) * (e.2 - mean y))).sum / ((x.length : ℝ) - 1)

/-- An entry of `np.corrcoef` (plot.py 255): `c / stddev[:, None] / stddev[None, :]`, nan if a deviation is 0, then clipped. -/
noncomputable def corrcoef (x y : List ℝ) : XF :=
  if Real.sqrt (cov x x) = 0 ∨ Real.sqrt (cov y y) = 0 then .nan
  else .fin (max (-1) (min 1 (cov x y / Real.sqrt (cov x x) / Real.sqrt (cov y y))))

/-- The columns of `samples` (plot.py 240-243) for `n` parameters. -/
noncomputable def cornerColumns (n : Nat) (flat : List (List ℝ)) (post prior : List ℝ) : List (List ℝ) :=
  (List.range n).map (fun i => flat.map (fun p => p.getD i 0)) ++ [post, prior]

/-- The checks of `corner.corner` (plot.py 246-252). -/
noncomputable def cornerChecks (cols : List (List ℝ)) (samples : Nat) : Res Unit :=
  open Classical in
  if samples < cols.length then .error .assertionError
  else if ∃ c ∈ cols, ∀ a ∈ c, ∀ b ∈ c, a = b then .error .valueError
  else .ok ()

/-- The diagonal panel of a column (plot.py 266-279): the line at the best fit and the curve of the prior. -/
noncomputable def cornerDiagonal (sig : Parameter.Solver) (config : Parameter.Config) (names : List String) (mpe : List ℝ)
    (key : String) : Res (Option ℝ × Option Curve) :=
  match config.get? key with
  | none => .ok (none, none)
  | some _ => do
    let best ← if key ∈ names then ((PyDict.ofList (names.zip mpe)).getItem key).map some else .ok none
    let curve ← cornerCurve sig config key
    return (best, curve)

/-- The figure: the labels of the columns, the colour of each panel below the diagonal (row by row, a number between -1 and 1 on the
colour scale), and the lines in the panels of the diagonal. -/
structure CornerPlot where
  labels : List String
  colours : List (List XF)
  diagonal : List (Option ℝ × Option Curve)

/-- `plot_corner` (plot.py 228-281). -/
noncomputable def plotCorner (sig : Parameter.Solver) (config : Parameter.Config) (names : List String) (flat : List (List ℝ))
    (post prior mpe : List ℝ) : Res CornerPlot := do
  let cols := cornerColumns names.length flat post prior
  let labels := names ++ ["log posterior", "log prior"]
  cornerChecks cols flat.length
  let diagonal ← labels.mapM (cornerDiagonal sig config names mpe)
  return ⟨labels, (List.range (names.length + 2)).map (fun yi =>
    (List.range yi).map (fun xi => corrcoef (cols.getD yi []) (cols.getD xi []))), diagonal⟩

end Verif.Plot
