/-
Specification of a simulation as a data flow: an assignment `val` of one value per data name,
such that every plugin, called once on the values of its inputs, gives the values of its needed outputs, with
the random key passed from one call to the next.
-/
import Verif.Model.Registry

namespace Verif.Comp

inductive Evaluates {K V : Type} (sem : Plugin → K → List V → Verif.Res (K × List V))
    (needed : String → Prop) (val : String → V) : List Plugin → K → K → Prop
  | nil {k} : Evaluates sem needed val [] k k
  | cons {p ps k k' k'' outs} :
      sem p k (p.dependsOn.map val) = .ok (k', outs) →
      (∀ (i : Nat) (d : String), p.provides[i]? = some d → needed d → outs[i]? = some (val d)) →
      Evaluates sem needed val ps k' k'' →
      Evaluates sem needed val (p :: ps) k k''

end Verif.Comp
