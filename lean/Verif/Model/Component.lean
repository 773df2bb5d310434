/-
Model of `ComponentSim` objects and the global function cache:
`appletree/component.py` 311-438 and `appletree/share.py` 28-44.
-/
import Verif.Model.Codegen

namespace Verif.Comp
open Verif

/-- `for config in plugin.takes_config.values(): ...` (component.py 327-332).  `required c` is
`config.required_parameter(llh_name)` (config.py 143-150, 530-540), which may raise. -/
def cfgLoop (required : Cfg → Res (Option String)) : List Cfg → List String → List String × Res Unit
  | [], nd => (nd, .ok ())
  | c :: cs, nd => match required c with
    | .error e => (nd, .error e)
    | .ok none => cfgLoop required cs nd
    | .ok (some q) => cfgLoop required cs (nd ++ [q])

/-- The body of the loop of `dependencies_simplify` for the plugins kept in the worksheet
(component.py 323-332): worksheet and needed parameters, as far as the loop came. -/
def needLoop (required : Cfg → Res (Option String)) :
    List Plugin → List Plugin → List String → (List Plugin × List String) × Res Unit
  | [], ws, nd => ((ws, nd), .ok ())
  | p :: ps, ws, nd => match cfgLoop required p.configs (nd ++ p.parameters) with
    | (nd, .error e) => ((ws ++ [p], nd), .error e)
    | (nd, .ok ()) => needLoop required ps (ws ++ [p]) nd

/-- A `ComponentSim` object (component.py 21-56, 202-205).  `target` is the partial `exec` held by
`_compile`: the identity of the captured dictionary and the code. -/
structure Comp where
  name : String
  llhName : String
  rateName : String
  registry : Registry
  forceNoEff : Bool := false
  worksheet : List Plugin := []
  needed : List String := []
  funcName : Option String := none
  code : Option Code := none
  target : Option (Nat × Code) := none
  simulate : Option Code := none

/-- `share._cached_functions`: likelihood name to dictionary (by identity), and the contents of the
dictionaries, function name to function. -/
structure FnCache where
  cache : PyDict String Nat := []
  heap : List (PyDict String Code) := []

/-- Arguments of `deduce` and the parts of the environment it reads. -/
structure DeduceArgs where
  dataNames : List String
  funcName : String := "simulate"
  nodep : String := "batch_size"
  force : Bool := false
  required : Cfg → Res (Option String) := fun _ => .ok none
  fuel : Nat := 1000

/-- The list of outputs (component.py 421-429): drop the first "eff", append it unless forced. -/
def outNames (names : List String) (force : Bool) : List String :=
  if force then names.erase "eff" else names.erase "eff" ++ ["eff"]

/-- `deduce` (component.py 403-433) with `dependencies_deduce`, `dependencies_simplify`,
`flush_source_code` and the `code` setter (397-401).  The writes made before an exception stay. -/
def deduce (c : Comp) (g : FnCache) (a : DeduceArgs) : (Comp × FnCache) × Res Unit :=
  let names := outNames a.dataNames a.force
  let c := { c with forceNoEff := a.force || c.forceNoEff }
  match deduceDeps c.registry a.nodep a.fuel names [] with
  | .error e => ((c, g), .error e)
  | .ok deps =>
    match needLoop a.required (worksheet deps) [] (if c.rateName = "" then [] else [c.rateName]) with
    | ((ws, nd), .error e) => (({ c with worksheet := ws, needed := nd }, g), .error e)
    | ((ws, nd), .ok ()) =>
      let code := genCode c.name c.llhName ws names a.funcName a.nodep
      let c := { c with worksheet := ws, needed := nd, funcName := some a.funcName,
                        code := some code }
      if g.cache.has c.llhName then ((c, g), .error .runtimeError)
      else
        let id := g.heap.length
        (({ c with target := some (id, code) },
          { cache := g.cache.set c.llhName id, heap := g.heap ++ [[]] }), .ok ())

/-- `compile` (component.py 435-438): execute the code in the captured dictionary, then read the
function back through the global cache.  Import errors while executing are not modelled here (see `Code.run`). -/
def compile (c : Comp) (g : FnCache) : (Comp × FnCache) × Res Unit :=
  match c.target with
  | none => ((c, g), .error .attributeError)
  | some (id, code) =>
    let g := { g with heap := g.heap.modify id (fun d => d.set code.funcName code) }
    match g.cache.get? c.llhName with
    | none => ((c, g), .error .keyError)
    | some id' =>
      match (g.heap[id']?.getD []).get? (c.funcName.getD "") with
      | none => ((c, g), .error .keyError)
      | some f => (({ c with simulate := some f }, g), .ok ())

/-- `clear_cache` on the function cache (share.py 42-44): the global dictionary is emptied,
dictionaries still held by components live on. -/
def clearCache (g : FnCache) : FnCache := { g with cache := [] }

/-- A program over any number of components. -/
inductive Op
  | deduce (i : Nat) (a : DeduceArgs)
  | compile (i : Nat)
  | clear

structure World where
  comps : Nat → Comp
  cache : FnCache

def setComp (f : Nat → Comp) (i : Nat) (c : Comp) : Nat → Comp := fun j => if j = i then c else f j

/-- One operation; an exception is caught by the caller and the state stays as it is. -/
def step (w : World) : Op → World × Res Unit
  | .deduce i a => let r := deduce (w.comps i) w.cache a
                   (⟨setComp w.comps i r.1.1, r.1.2⟩, r.2)
  | .compile i => let r := compile (w.comps i) w.cache
                  (⟨setComp w.comps i r.1.1, r.1.2⟩, r.2)
  | .clear => (⟨w.comps, clearCache w.cache⟩, .ok ())

def runOps (w : World) (ops : List Op) : World := ops.foldl (fun w o => (step w o).1) w

/-- Splitting the simulated columns into data and weights in `simulate_hist` (component.py 449-455);
an empty result list has no last column (IndexError). -/
def splitEff {V : Type} (one : V) (forceNoEff : Bool) (result : List (List V)) :
    Res (List (List V) × List V) :=
  match result.getLast? with
  | none => .error .indexError
  | some last =>
    if forceNoEff then .ok (result, List.replicate last.length one)
    else .ok (result.dropLast, last)

end Verif.Comp
