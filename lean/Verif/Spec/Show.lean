/-
Specification vocabulary for the table of options (component.py 504-550).
-/
import Verif.Model.Show

namespace Verif.Show
open Verif Comp

/-- What the table has to show as the present value of an option: what is set for this likelihood, if anything is. -/
def IsCurrent (cache : Conf.Cache) (llh name : String) : Option Conf.Atom → Prop
  | none => cache.data.get? name = none
  | some a => cache.data.get? name = some (.atom a) ∨
      ∃ d, cache.data.get? name = some (.dict d) ∧ d.get? llh = some a

end Verif.Show
