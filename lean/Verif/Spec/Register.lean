/-
Specification vocabulary for the registration of components in a likelihood.
-/
import Verif.Model.Register

namespace Verif.Llh
open Verif Comp

section
variable {K V : Type}

/-- The registrations of a program that succeeded. -/
def succeeded (llh : String) (binsOn : List String) (al : PyDict String String) (wrap : Comp → LComp K V) :
    List (Reg K V) → State K V × FnCache → List (Reg K V)
  | [], _ => []
  | r :: rs, sg =>
    let x := regStep llh binsOn al wrap sg r
    (match x.2 with | .ok () => [r] | .error _ => []) ++ succeeded llh binsOn al wrap rs x.1

/-- A registration of a simulated component. -/
def Reg.isSim : Reg K V → Bool
  | .sim _ => true
  | .fixed .. => false

/-- The name a component is registered under. -/
def Reg.comp : Reg K V → String
  | .sim a => a.comp
  | .fixed n _ => n

end
end Verif.Llh
