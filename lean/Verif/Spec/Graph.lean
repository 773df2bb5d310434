import Verif.Spec.Deps

/-! What a drawing of dependencies should contain. -/

namespace Verif.Graph
open Verif Comp

/-- The inputs of the provider of a data name. -/
def inputs (reg : Registry) (d : String) : List String :=
  match reg.get? d with
  | some p => p.dependsOn
  | none => []

/-- The edges drawn from a node. -/
def edgesFrom (l : List (String × String)) (d : String) : List (String × String) := l.filter (fun x => x.1 = d)

end Verif.Graph
