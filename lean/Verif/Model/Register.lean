/-
Model of `Likelihood.register_component` together with the global function cache: `appletree/likelihood.py` 239-279 calling
`deduce` and `compile` of `ComponentSim` (component.py 397-438) and `ComponentFixed.deduce` (610-615), with
`StaticValueDict` (share.py 28-35).
-/
import Verif.Model.Component
import Verif.Model.Likelihood

namespace Verif.Llh
open Verif Comp

/-- What the caller gives for a simulated component: its name, the registry its class builds, and its environment. -/
structure SimArgs where
  comp : String
  registry : Registry
  required : Cfg → Res (Option String) := fun _ => .ok none

section
variable {K V : Type}

/-- `register_component` with a `ComponentSim` class; `wrap` makes the histograms of the compiled component. -/
def registerSim (llh : String) (binsOn : List String) (al : PyDict String String) (wrap : Comp → LComp K V)
    (s : State K V) (g : FnCache) (a : SimArgs) : (State K V × FnCache) × Res Unit :=
  if s.components.has a.comp then ((s, g), .error .valueError)
  else
    match deduce { name := a.comp, llhName := llh, rateName := a.comp ++ "_rate", registry := a.registry } g
        { dataNames := binsOn ++ ["eff"], funcName := llh ++ "_" ++ a.comp ++ "_sim", required := a.required } with
    | ((_, g), .error e) => ((s, g), .error e)
    | ((c, g), .ok ()) =>
      match compile c g with
      | ((_, g), .error e) => ((s, g), .error e)
      | ((c, g), .ok ()) =>
        let r := register al s a.comp (.ok (wrap c))
        ((r.1, g), r.2)

/-- One registration in a likelihood: a simulated component, or a fixed one whose histogram is built or not. -/
inductive Reg (K V : Type)
  | sim (a : SimArgs)
  | fixed (comp : String) (built : Res (LComp K V))

/-- One registration; an exception is caught by the caller. -/
def regStep (llh : String) (binsOn : List String) (al : PyDict String String) (wrap : Comp → LComp K V)
    (sg : State K V × FnCache) : Reg K V → (State K V × FnCache) × Res Unit
  | .sim a => registerSim llh binsOn al wrap sg.1 sg.2 a
  | .fixed n b => let r := register al sg.1 n b
                  ((r.1, sg.2), r.2)

end
end Verif.Llh
