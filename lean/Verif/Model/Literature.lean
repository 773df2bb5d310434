/-
One event of the components with which literature likelihoods are made: components/yields.py with the plugins of nestv2.py.
-/
import Verif.Model.Plugins
import Verif.Model.Likelihood
import Verif.Model.ShippedLiterature

namespace Verif.Lit
open Verif Plugins

/-- The parameters of the yield plugins and the field. -/
structure Pars where
  alpha : ℝ
  beta : ℝ
  gamma : ℝ
  delta : ℝ
  density : ℝ
  epsilon : ℝ
  zeta : ℝ
  eta : ℝ
  theta : ℝ
  iota : ℝ
  field : ℝ

open Classical in
/-- `x ** y` of floats (nestv2.py 127): a negative base with an exponent that is no integer gives NaN, zero with a negative exponent infinity. -/
noncomputable def fpow (x y : ℝ) : XF :=
  if x < 0 ∧ ¬ ∃ k : ℤ, (k : ℝ) = y then .nan else if x = 0 ∧ y < 0 then .pinf else .fin (x ^ y)

/-- `LyNR` (nestv2.py 120-130) with the division and the power of floats: an energy of zero gives NaN or an infinity.  `theta` is not zero. -/
noncomputable def lyX (theta iota energy nq qy : ℝ) : XF :=
  clip ((.fin nq / .fin energy - .fin qy) * (.fin 1 - .fin 1 / (.fin 1 + fpow (energy / theta) iota))) (.fin 0) .pinf

/-- The charge yield of an energy: `ThomasImelBox`, `QyNR` (nestv2.py 92-116), for positive parameters: divisions by zero are not modelled
here. -/
noncomputable def chargeYield (p : Pars) (energy : ℝ) : ℝ :=
  qyNR p.epsilon p.zeta p.eta energy (thomasImelBox p.gamma p.delta p.density p.field)

/-- The light yield of an energy: `TotalQuanta`, `ThomasImelBox`, `QyNR`, `LyNR` (nestv2.py 80-130). -/
noncomputable def lightYield (p : Pars) (energy : ℝ) : XF :=
  lyX p.theta p.iota energy (totalQuanta p.alpha p.beta energy) (chargeYield p energy)

/-- The yield that the likelihood compares (`bins_on` of the instruction): the light or the charge yield. -/
noncomputable def yieldOf (light : Bool) (p : Pars) (energy : ℝ) : XF :=
  if light then lightYield p energy else .fin (chargeYield p energy)

/-- A measured point: the energy of its centre (the `mu` of `energy_twohalfnorm`), and the arguments of the density of its yield. -/
structure Point where
  center : ℝ
  mu : ℝ
  sp : ℝ
  sn : ℝ

/-- What `MonoEnergiesYields` returns for one event (components/yields.py 6-17, nestv2.py 20-46 and 235-265): each measured point with the
draw of its energy. -/
noncomputable def monoRow (light : Bool) (lower upper : ℝ) (p : Pars) (pts : List (Point × ℝ)) : Llh.Grid XF :=
  [pts.map (fun q => .fin (max q.2 0)), pts.map (fun q => yieldOf light p (max q.2 0)),
   pts.map (fun q => monoEnergiesClipEff lower upper (.fin q.1.center))]

/-- What `BandEnergiesYields` returns for one event (components/yields.py 20-31, nestv2.py 49-76 and 269-282), for the uniform draw `u`. -/
noncomputable def bandRow (light : Bool) (lower upper : ℝ) (p : Pars) (u : ℝ) : Llh.Grid XF :=
  [[.fin (uniformEnergy lower upper u)], [yieldOf light p (uniformEnergy lower upper u)], [bandEnergiesClipEff]]

/-- The distribution of a likelihood over measured points (likelihood.py 498-499). -/
def pointShape (pts : List Point) : Llh.Shape := .twohalfnorm (pts.map Point.mu) (pts.map Point.sp) (pts.map Point.sn)

end Verif.Lit
