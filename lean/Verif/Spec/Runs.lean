/-
Words for C151: a data set taken in several runs.
-/
import Verif.Spec.Rates

namespace Verif.Llh
open Verif Comp

/-- A run: the likelihood made from its file, its share of the exposure, and the parameters it is evaluated at. -/
structure Run where
  built : Built ℝ
  share : ℝ
  pars : PyDict String ℝ

/-- The runs are evaluated at the parameters `q`, but with the rates that belong to their shares; the shares add up to one. -/
structure Shared {K : Type} (S : Setup K) (parts : List Part) (q : PyDict String ℝ) (runs : List Run) : Prop where
  varies : ∀ r ∈ runs, Varies S parts q r.pars
  positive : ∀ r ∈ runs, 0 < r.share
  rates : ∀ r ∈ runs, ratesOf parts (replaceAlias S.al r.pars) = (ratesOf parts (replaceAlias S.al q)).map (r.share * ·)
  whole : (runs.map Run.share).sum = 1

end Verif.Llh
