/-
Model of `plot_irreg_histogram_2d` (`appletree/utils.py` 358-437).  A picture is its rectangles, each with its position on the
colour scale, and the limits of the axes; the colour map of matplotlib, which turns positions into colours, is not modelled.  The
contents of the histogram are extended floats (pulls are NaN in empty bins), the edges are finite.
External behaviour modelled here: `np.min` and `np.max` raise ValueError for empty arrays and return NaN if an entry is NaN;
`matplotlib.colors.Normalize` without clipping maps everything to 0 if its limits are equal, raises ValueError if they are in the
wrong order, and otherwise subtracts the lower one and divides by their difference.
-/
import Verif.Base.Py
import Verif.Base.XF

namespace Verif.HistPlot
open Verif

/-- `Rectangle(loc, width, height)` with its content (utils.py 384-396). -/
structure Rect where
  x : ℝ
  y : ℝ
  width : ℝ
  height : ℝ
  area : ℝ
  n : XF

/-- `a[i]` of a numpy array for an index that is not negative. -/
def entry {α : Type} (a : List α) (i : Nat) : Res α :=
  match a[i]? with
  | some v => .ok v
  | none => .error .indexError

/-- The body of the loops (utils.py 386-396). -/
noncomputable def rect (binsX : List ℝ) (binsY : List (List ℝ)) (i j : Nat) (n : XF) : Res Rect := do
  let xLower ← entry binsX i
  let xUpper ← entry binsX (i + 1)
  let row ← entry binsY i
  let yLower ← entry row j
  let yUpper ← entry row (j + 1)
  return ⟨xLower, yLower, xUpper - xLower, yUpper - yLower, (xUpper - xLower) * (yUpper - yLower), n⟩

/-- The two loops over the histogram (utils.py 384-402). -/
noncomputable def rects (binsX : List ℝ) (binsY : List (List ℝ)) (hist : List (List XF)) : Res (List Rect) :=
  (hist.zipIdx.flatMap (fun ri => ri.1.zipIdx.map (fun nj => (ri.2, nj.2, nj.1)))).mapM (fun t => rect binsX binsY t.1 t.2.1 t.2.2)

/-- `np.minimum` with NaN propagated. -/
noncomputable def lesser (a b : XF) : XF := if a.isNaN ∨ b.isNaN then .nan else if b < a then b else a

/-- `np.maximum` with NaN propagated. -/
noncomputable def greater (a b : XF) : XF := if a.isNaN ∨ b.isNaN then .nan else if a < b then b else a

/-- `np.min`. -/
noncomputable def minOf : List XF → Res XF
  | [] => .error .valueError
  | a :: l => .ok (l.foldl lesser a)

/-- `np.max`. -/
noncomputable def maxOf : List XF → Res XF
  | [] => .error .valueError
  | a :: l => .ok (l.foldl greater a)

/-- `norm(c)` of `matplotlib.colors.Normalize(vmin, vmax, clip=False)` (utils.py 405-415, 424). -/
noncomputable def level (vmin vmax c : XF) : Res XF :=
  open Classical in
  if vmin = vmax ∧ ¬ vmin.isNaN then .ok (.fin 0)
  else if vmax < vmin then .error .valueError
  else .ok ((c - vmin) / (vmax - vmin))

/-- The value shown by the colour: the content or, with `density`, the content divided by the area (utils.py 419). -/
noncomputable def shown (density : Bool) (r : Rect) : XF := if density then r.n / .fin r.area else r.n

/-- A rectangle and its position on the colour scale. -/
structure Patch where
  rect : Rect
  level : XF

structure Picture where
  patches : List Patch
  xlim : XF × XF
  ylim : XF × XF

/-- `plot_irreg_histogram_2d` (utils.py 359-437).  The default limits of the colour scale are computed even if both are given. -/
noncomputable def plotHist (binsX : List ℝ) (binsY : List (List ℝ)) (hist : List (List XF)) (density : Bool)
    (vmin vmax : Option XF) : Res Picture := do
  let rs ← rects binsX binsY hist
  let lo ← minOf (rs.map (shown density))
  let hi ← maxOf (rs.map (shown density))
  let patches ← rs.mapM (fun r => do
    let l ← level (vmin.getD lo) (vmax.getD hi) (shown density r)
    return (⟨r, l⟩ : Patch))
  let x0 ← minOf (binsX.map .fin)
  let x1 ← maxOf (binsX.map .fin)
  let y0 ← minOf (binsY.flatten.map .fin)
  let y1 ← maxOf (binsY.flatten.map .fin)
  return ⟨patches, (x0, x1), (y0, y1)⟩

end Verif.HistPlot
