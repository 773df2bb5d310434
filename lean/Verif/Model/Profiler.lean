/-
Model of the plugin profiler: `appletree/profiler.py` 17-145 and 148-215.

The clock readings and printed text are not modelled: the result of profiling a component keeps the names of
each line, the final key and the data store.  `block_until_ready` is the identity.
-/
import Verif.Model.Component

namespace Verif.Comp
open Verif

section
variable {K V : Type}

/-- A loop of `n` calls `key, *outputs = plugin_instance.simulate(key, parameters, *args)` (profiler.py 42-45 and
49-53).  `outputs` is unbound (`none`) until the first call. -/
def profileRuns (sem : Plugin → K → List V → Res (K × List V)) (p : Plugin) (args : List V) :
    Nat → K × Option (List V) → Res (K × Option (List V))
  | 0, s => .ok s
  | n + 1, s => match sem p s.1 args with
    | .error e => .error e
    | .ok (k, outs) => profileRuns sem p args n (k, some outs)

/-- `input_data[dep]` (profiler.py 39). -/
def readData (store : PyDict String V) (d : String) : Res V := store.getItem d

/-- `output_data[name] = outputs[i]` for the enumerated `provides` (profiler.py 57-59): an unbound `outputs` or a
missing element raises, more outputs than names are ignored. -/
def collect : List String → Option (List V) → PyDict String V → Res (PyDict String V)
  | [], _, acc => .ok acc
  | _ :: _, none, _ => .error .unboundLocal
  | _ :: _, some [], _ => .error .indexError
  | d :: ds, some (v :: vs), acc => collect ds (some vs) (acc.set d v)

/-- `profile_plugin` (profiler.py 17-61): the key and `output_data`. -/
def profilePlugin (sem : Plugin → K → List V → Res (K × List V)) (warmup runs : Nat) (p : Plugin) (key : K)
    (store : PyDict String V) : Res (K × PyDict String V) := do
  let args ← p.dependsOn.mapM (readData store)
  let s ← profileRuns sem p args warmup (key, none)
  let s ← profileRuns sem p args runs s
  let out ← collect p.provides s.2 []
  return (s.1, out)

/-- One line of the result of `profile_component` without the times (profiler.py 127-134). -/
structure ProfileLine where
  plugin : String
  provides : List String
  dependsOn : List String
  deriving DecidableEq, Repr

/-- The body of the loop of `profile_component` (profiler.py 108-134): the class is looked up in the registry under
the first provided name of the worksheet line and instantiated (plugin.py 37-41). -/
def profileWork (reg : Registry) (sem : Plugin → K → List V → Res (K × List V)) (warmup runs : Nat)
    (s : K × PyDict String V × List ProfileLine) (w : Work) :
    Res (K × PyDict String V × List ProfileLine) := do
  let first ← match w.provides with
    | [] => .error .indexError
    | d :: _ => .ok d
  let cls ← reg.getItem first
  if cls.dependsOn = [] || cls.provides = [] then .error .valueError
  else
    let r ← profilePlugin sem warmup runs cls s.1 s.2.1
    return (r.1, s.2.1.update r.2, s.2.2 ++ [⟨w.name, w.provides, w.dependsOn⟩])

/-- `profile_component` (profiler.py 65-145) of a component whose worksheet is `ws` (`none`: not deduced). -/
def profileComponent (reg : Registry) (ws : Option (List Work)) (sem : Plugin → K → List V → Res (K × List V))
    (warmup runs : Nat) (key : K) (batchSize : V) : Res (K × PyDict String V × List ProfileLine) :=
  match ws with
  | none => .error .runtimeError
  | some ws => ws.foldlM (profileWork reg sem warmup runs) (key, [("batch_size", batchSize)], [])

/-- The loops of `profile_context` (profiler.py 183-209) over likelihoods and components.  A component is `none` if it
is not a `ComponentSim` (skipped), else the outcome of profiling it. -/
def profileContext {R : Type} (llhs : List (String × List (String × Option (Res R)))) : Res (PyDict String R) :=
  llhs.foldlM (fun acc l => l.2.foldlM (fun acc c =>
    match c.2 with
    | none => .ok acc
    | some (.error e) => .error e
    | some (.ok r) => .ok (acc.set (l.1 ++ "/" ++ c.1) r)) acc) []

end
end Verif.Comp
