/-
Model of the generated simulation function: `appletree/component.py` 334-401, 435-438 and
`appletree/plugin.py` 33-92.

The source text written by `flush_source_code` is represented by its abstract syntax: one assignment statement per
worksheet line and a return statement.  Simplifications: data names are assumed not to be the names
`key`, `parameters` or an instance name, and `jit` is the identity.
-/
import Verif.Model.Registry

namespace Verif.Comp
open Verif

/-- A worksheet line `[plugin.__name__, plugin.provides, plugin.depends_on]` (component.py 323). -/
structure Work where
  name : String
  provides : List String
  dependsOn : List String
  deriving DecidableEq, Repr

def Work.ofPlugin (p : Plugin) : Work := ⟨p.name, p.provides, p.dependsOn⟩

/-- The generated source (component.py 348-382). -/
structure Code where
  funcName : String
  nodep : String
  works : List Work
  outs : List String
  compName : String
  llhName : String
  deriving DecidableEq, Repr

/-- `flush_source_code` up to the assignment of `self.code` (component.py 334-382). -/
def genCode (compName llhName : String) (ws : List Plugin) (dataNames : List String)
    (funcName nodep : String) : Code :=
  ⟨funcName, nodep, ws.map Work.ofPlugin, dataNames, compName, llhName⟩

/-- `from appletree.plugins import X` (component.py 355-358). -/
def importClass (ns : PyDict String Plugin) (w : Work) : Res (String × Plugin) :=
  match ns.get? w.name with
  | none => .error .importError
  | some p => .ok (w.name, p)

/-- `from appletree.plugins import X` for each line, then `X_name = X('llh')` (component.py 355-365);
`Plugin.__init__` rejects empty `depends_on`/`provides` (plugin.py 37-41).  `ns` is the namespace
`appletree.plugins`.  The result maps the plugin name to the class of its instance. -/
def instantiate (ns : PyDict String Plugin) (works : List Work) : Res (PyDict String Plugin) := do
  let cls ← works.mapM (importClass ns)
  if cls.any (fun c => c.2.dependsOn = [] || c.2.provides = []) then .error .valueError
  else .ok (PyDict.ofList cls)

section
variable {K V : Type}

/-- Reading a variable of the generated function. -/
def readVar (env : PyDict String V) (x : String) : Res V :=
  match env.get? x with
  | none => .error .nameError
  | some v => .ok v

/-- One generated line `key, p1, p2 = inst(key, parameters, d1, d2)` (component.py 375-379).
`sem P key args` is `P.simulate(key, parameters, *args)` at the given parameters. -/
def runWork (inst : PyDict String Plugin) (sem : Plugin → K → List V → Res (K × List V)) (w : Work)
    (s : K × PyDict String V) : Res (K × PyDict String V) := do
  let cls ← match inst.get? w.name with
    | none => .error .nameError
    | some p => .ok p
  let args ← w.dependsOn.mapM (readVar s.2)
  let (key, outs) ← sem cls s.1 args
  if outs.length = w.provides.length then .ok (key, s.2.update (w.provides.zip outs))
  else .error .valueError

def runWorks (inst : PyDict String Plugin) (sem : Plugin → K → List V → Res (K × List V))
    (ws : List Work) (s : K × PyDict String V) : Res (K × PyDict String V) :=
  ws.foldlM (fun s w => runWork inst sem w s) s

/-- Executing the source text and calling the function it defines on `key` and the value of the
no-dependency argument (component.py 355-382). -/
def Code.run (c : Code) (ns : PyDict String Plugin) (sem : Plugin → K → List V → Res (K × List V))
    (key : K) (input : V) : Res (K × List V) := do
  let inst ← instantiate ns c.works
  let (key, env) ← runWorks inst sem c.works (key, [(c.nodep, input)])
  let outs ← c.outs.mapM (readVar env)
  return (key, outs)

end
end Verif.Comp
