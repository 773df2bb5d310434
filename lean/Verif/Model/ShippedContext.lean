/-
The components of the shipped instructions as `register_component` builds them: `appletree/likelihood.py` 239-279 with
`ComponentSim.deduce` (component.py 403-433) and `ComponentFixed.deduce` (610-615).
-/
import Verif.Model.Shipped
import Verif.Model.Component
import Verif.Model.Context

namespace Verif.Shipped
open Verif Comp

/-- The registry of a component after its constructor (components/*.py). -/
def registry (ps : List Plugin) : Registry := (registerAll [] ps).1

/-- `config.required_parameter(llh_name)`: `None` unless the configuration is a `SigmaMap` (config.py 143-150, 530-540). -/
def required (cache : Conf.Cache) (llh : String) (c : Cfg) : Res (Option String) :=
  match sigmaMaps.find? (fun m => m.name = c.name) with
  | none => .ok none
  | some cf =>
    match (Conf.requiredParameter cf none (some llh) cache).2 with
    | .error e => .error e
    | .ok (some (.str s)) => .ok (some s)
    | .ok _ => .ok none

/-- The parameters a component of class `cls` needs after `register_component` (likelihood.py 255-268) with the given configured
sigma maps and observables; class names other than the shipped simulated ones and `AC` are unknown. -/
def compNeeded (sigmas : PyDict String Conf.CVal) (llh : String) (binsOn : List String) (comp cls : String) : Res (List String) :=
  match PyDict.get? components cls with
  | none => if cls = "AC" then .ok [comp ++ "_rate"] else .error .attributeError
  | some ps =>
    match deduce { name := comp, llhName := llh, rateName := comp ++ "_rate", registry := registry ps } {}
        { dataNames := binsOn ++ ["eff"], funcName := llh ++ "_" ++ comp ++ "_sim"
          required := required { data := sigmas } llh } with
    | (_, .error e) => .error e
    | ((c, _), .ok ()) => .ok c.needed

end Verif.Shipped
