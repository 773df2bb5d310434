/-
The models of the separate parts put together: a likelihood whose simulated components are compiled from registered plugins
(`likelihood.py` 239-279 with `component.py` 403-464) and whose fixed ones come from tables (`component.py` 596-636).

No new behaviour is modelled here.  Data passed between plugins is a column of numbers, one per event, or the batch size.
The functions of the plugins are arguments: `sem q P key args` is `P.simulate(key, q, *args)` at the parameters `q`.  Finite
floats are real numbers; what a component does at parameters that are not finite is the argument `odd`.
-/
import Verif.Model.Register
import Verif.Model.Context

namespace Verif.Llh
open Verif

/-- A value passed between plugins. -/
inductive PVal
  | int (n : Int)
  | col (c : List ℝ)

/-- `jnp.array(result)`: the columns of the simulated data; a bare number among them has no length. -/
def columns : List PVal → Res (List (List ℝ))
  | [] => .ok []
  | .col c :: r => do let cs ← columns r; return c :: cs
  | .int _ :: _ => .error .typeError

/-- The parameters as real numbers, if all are finite. -/
def reals : PyDict String XF → Option (PyDict String ℝ)
  | [] => some []
  | (k, .fin x) :: r => (reals r).map (fun q => (k, x) :: q)
  | _ :: _ => none

/-- Real parameters as floats. -/
def floats (q : PyDict String ℝ) : PyDict String XF := q.map (fun e => (e.1, .fin e.2))

/-- A histogram of real numbers as floats. -/
def gridFloats (g : Grid ℝ) : Grid XF := g.map (fun r => r.map .fin)

section
variable {K : Type}

/-- A component computing with floats. -/
def onFloats (odd : K → Int → PyDict String XF → Res (K × Grid XF)) (oddFixed : PyDict String XF → Res (Grid XF)) :
    LComp K ℝ → LComp K XF
  | .sim nd hist w => .sim nd
      (fun key batch p => match reals p with
        | some q => (hist key batch q).map (fun r => (r.1, gridFloats r.2))
        | none => odd key batch p)
      (fun key batch p => match reals p with
        | some q => (w key batch q).map (fun r => (r.1, gridFloats r.2))
        | none => odd key batch p)
  | .fixed nd hist w => .fixed nd
      (fun p => match reals p with
        | some q => (hist q).map gridFloats
        | none => oddFixed p)
      (fun p => match reals p with
        | some q => (w q).map gridFloats
        | none => oddFixed p)
  | .other nd => .other nd

/-- What a likelihood and its environment fix: the settings of each component by name, the namespace `appletree.plugins`, the
functions of the plugins. -/
structure Setup (K : Type) where
  llh : String
  binsOn : List String
  al : PyDict String String
  cfg : String → Comp.HistCfg ℝ
  ns : PyDict String Comp.Plugin
  sem : PyDict String ℝ → Comp.Plugin → K → List PVal → Res (K × List PVal)
  odd : K → Int → PyDict String XF → Res (K × Grid XF)
  oddFixed : PyDict String XF → Res (Grid XF)

/-- `component.simulate(key, batch_size, parameters)` for a compiled component (component.py 435-438, 448-449). -/
def Setup.run (S : Setup K) (c : Comp.Comp) (key : K) (batch : Int) (q : PyDict String ℝ) : Res (K × List (List ℝ)) :=
  match c.simulate with
  | none => .error .attributeError
  | some code => do
    let r ← code.run S.ns (S.sem q) key (.int batch)
    let cols ← columns r.2
    return (r.1, cols)

/-- A compiled component as a likelihood uses it. -/
noncomputable def Setup.wrap (S : Setup K) (c : Comp.Comp) : LComp K XF :=
  onFloats S.odd S.oddFixed (SimDesc.comp
    { cfg := S.cfg c.name, forceNoEff := c.forceNoEff, rateName := c.rateName, needed := c.needed, run := S.run c })

/-- A component to register: simulated, or a table of `n` events. -/
inductive Part
  | sim (a : SimArgs)
  | fixed (name : String) (data : List (List ℝ)) (n : Nat)

/-- The registration of a component (likelihood.py 239-279). -/
noncomputable def Setup.reg (S : Setup K) : Part → Reg K XF
  | .sim a => .sim a
  | .fixed name data n => .fixed name
      ((Comp.fixedDeduce (S.cfg name) (name ++ "_rate") [] data n).map
        (fun c => onFloats S.odd S.oddFixed (fixedComp c (name ++ "_rate"))))

/-- Registering components one after the other; the first exception ends it. -/
noncomputable def Setup.build (S : Setup K) : List Part → State K XF × Comp.FnCache → (State K XF × Comp.FnCache) × Res Unit
  | [], sg => (sg, .ok ())
  | p :: ps, sg =>
    match regStep S.llh S.binsOn S.al S.wrap sg (S.reg p) with
    | (sg', .error e) => (sg', .error e)
    | (sg', .ok ()) => S.build ps sg'

end
end Verif.Llh
