/-
Model of the prior curves in the plots of a fit: `appletree/plot.py` 98-110 (the densities), 194-211 (marginal plot) and 265-279
(corner plot).

A curve gives the height at every abscissa; `none` is nan, for which nothing is drawn.
-/
import Verif.Model.Parameter
import Verif.Model.Randgen

namespace Verif.Plot
open Verif Parameter

/-- A drawn curve. -/
abbrev Curve := ℝ → Option ℝ

/-- `_norm_pdf` (plot.py 98-100).  With `std = 0` every value is nan. -/
noncomputable def normPdf (mean std : ℝ) : Curve := fun x =>
  if std = 0 then none else some (Real.exp (-(x - mean) ^ 2 / std ^ 2 / 2) / Real.sqrt (2 * Real.pi) / std)

/-- `_uniform_pdf` (plot.py 102-104). -/
noncomputable def uniformPdf (lower upper : ℝ) : Res Curve :=
  if upper - lower = 0 then .error .zeroDivision else .ok (fun _ => some (1 / (upper - lower)))

/-- `_thn_pdf` (plot.py 106-110): the errors are converted to sigmas, then `TwoHalfNorm.logpdf` (randgen.py 564-577) asserts that
they are positive. -/
noncomputable def thnPdf (sig : Solver) (mu errPos errNeg : ℝ) : Res Curve :=
  match sig (errPos, errNeg) with
  | none => .error .assertionError
  | some (a, b) =>
    if 0 < a ∧ 0 < b then
      .ok (fun x => match Randgen.thnLogpdf x mu a b with
        | .ok l => some (Real.exp l)
        | .error _ => none)
    else .error .assertionError

/-- The prior in the marginal plot of a parameter (plot.py 194-211): `none` is no curve.  The type is looked up in a dictionary
of three functions. -/
noncomputable def marginalCurve (sig : Solver) (config : Config) (name : String) : Res (Option Curve) := do
  let s ← config.getItem name
  match s.prior with
  | .free => return none
  | .norm mean std => return some (normPdf mean std)
  | .uniform lower upper => (uniformPdf lower upper).map some
  | .twohalfnorm mu ep en => (thnPdf sig mu ep en).map some
  | .fixed _ => .error .keyError
  | .other => .error .keyError

/-- The prior on the diagonal of the corner plot (plot.py 265-279). -/
noncomputable def cornerCurve (sig : Solver) (config : Config) (name : String) : Res (Option Curve) :=
  match config.get? name with
  | none => .ok none
  | some s =>
    match s.prior with
    | .norm mean std => .ok (some (normPdf mean std))
    | .uniform lower upper => (uniformPdf lower upper).map some
    | .twohalfnorm mu ep en => (thnPdf sig mu ep en).map some
    | _ => .ok none

end Verif.Plot
