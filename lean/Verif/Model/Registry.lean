/-
Model of plugin registration and dependency resolution: `appletree/component.py` 207-325.

A plugin class is represented by the class attributes the code reads (plugin.py 20-31):
`__name__`, `provides`, `depends_on`, `parameters`, `takes_config`.  Two classes with equal attributes are
identified.  `provides`/`depends_on` are lists (a bare string is turned into a one-element tuple at
component.py 215-217).
-/
import Verif.Base.Py

namespace Verif.Comp
open Verif

/-- A configuration item of a plugin: its name and its default (`none` = OMITTED), config.py 68-110. -/
structure Cfg where
  name : String
  default : Option String
  deriving DecidableEq, Repr

/-- Class attributes of a plugin (plugin.py 14-31). -/
structure Plugin where
  name : String
  provides : List String
  dependsOn : List String
  parameters : List String
  configs : List Cfg
  deriving DecidableEq, Repr

/-- `_plugin_class_registry` (component.py 205): data name to plugin class. -/
abbrev Registry := PyDict String Plugin

/-- `for p in plugin_class.provides: self._plugin_class_registry[p] = plugin_class`
(component.py 219-220). -/
def addProvides (reg : Registry) (p : Plugin) : Registry :=
  p.provides.foldl (fun r d => r.set d p) reg

/-- The conflict test between one registered plugin and the new one (component.py 228-235). -/
def conflicts (old new : Plugin) : Bool :=
  old.configs.any (fun c => new.configs.any (fun c' => c'.name = c.name ∧ c.default ≠ c'.default))

/-- `register` for one class (component.py 207-246).  The registry is written before the check. -/
def register (reg : Registry) (p : Plugin) : Registry × Res Unit :=
  let reg' := addProvides reg p
  if (reg'.map Prod.snd).any (fun q => conflicts q p) then (reg', .error .valueError)
  else (reg', .ok ())

/-- `register` for a list of classes, or `register_all` over the classes of modules in `dir()` order
(component.py 209-213, 248-265): stops at the first error. -/
def registerAll (reg : Registry) : List Plugin → Registry × Res Unit
  | [] => (reg, .ok ())
  | p :: ps =>
    match register reg p with
    | (reg', .ok ()) => registerAll reg' ps
    | (reg', .error e) => (reg', .error e)

/-- One dictionary of the dependency list (component.py 288-294): plugin class and `provides` name. -/
structure Entry where
  plugin : Plugin
  data : String
  deriving DecidableEq, Repr

/-- First loop of `dependencies_deduce` (component.py 285-298). -/
def appendEntries (reg : Registry) (nodep : String) : List String → List Entry → Res (List Entry)
  | [], acc => .ok acc
  | n :: ns, acc =>
    if n = nodep then appendEntries reg nodep ns acc
    else match reg.get? n with
      | none => .error .valueError
      | some p => appendEntries reg nodep ns (acc ++ [⟨p, n⟩])

/-- `dependencies_deduce` (component.py 267-309).  The first argument is the remaining recursion
depth of the interpreter; reaching zero is python's RecursionError. -/
def deduceDeps (reg : Registry) (nodep : String) : Nat → List String → List Entry → Res (List Entry)
  | 0, _, _ => .error .recursionError
  | fuel + 1, names, acc => do
    let acc ← appendEntries reg nodep names acc
    names.foldlM (fun acc n =>
      if n = nodep then .ok acc
      else match reg.get? n with
        | none => .error .keyError
        | some p => deduceDeps reg nodep fuel p.dependsOn acc) acc

/-- The loop of `dependencies_simplify` over the reversed list, keeping the first plugin of each
`__name__` (component.py 311-325): the worksheet. -/
def simplifyLoop : List Entry → List String → List Plugin → List Plugin
  | [], _, ws => ws
  | e :: es, seen, ws =>
    if e.plugin.name ∈ seen then simplifyLoop es seen ws
    else simplifyLoop es (seen ++ [e.plugin.name]) (ws ++ [e.plugin])

/-- `dependencies_simplify`: the worksheet (component.py 311-325). -/
def worksheet (deps : List Entry) : List Plugin := simplifyLoop deps.reverse [] []

end Verif.Comp
