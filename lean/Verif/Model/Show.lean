/-
Model of `ComponentSim.show_config` and `ComponentSim.new_component` (`appletree/component.py` 504-569), with the constructors of
components (component.py 35-69, 202-205).

Simplifications: the table is the list of its rows, without the help texts; the constructor of a component class registers the plugins
given with the class (components/*.py).
-/
import Verif.Model.Config
import Verif.Model.Component

namespace Verif.Show
open Verif Comp

/-! ### The table of options -/

/-- A row: the option, its default if it has one, its present value if it is set, and what the plugin provides. -/
structure Row where
  option : String
  default : Option Conf.Atom
  current : Option Conf.Atom
  appliesTo : List String
  deriving DecidableEq

/-- `_cached_configs.get(config.name, None)`, resolved for the likelihood (component.py 531-533).  Reading by `get` is not
recorded. -/
def current (cache : Conf.Cache) (llh name : String) : Res (Option Conf.Atom) :=
  match cache.data.get? name with
  | none => .ok none
  | some (.atom a) => .ok (some a)
  | some (.dict d) => do
    let a ← d.getItem llh
    return some a

/-- The rows of a plugin (component.py 526-542); `conf` is the configuration object. -/
def pluginRows (conf : Cfg → Conf.Conf) (cache : Conf.Cache) (llh : String) (provides : List String) : List Cfg → Res (List Row)
  | [] => .ok []
  | c :: l => do
    let cur ← current cache llh (conf c).name
    let rs ← pluginRows conf cache llh provides l
    return ⟨(conf c).name, (conf c).default, cur, provides⟩ :: rs

/-- `for dep in dependencies: … if p in seen: continue` (component.py 518-524). -/
def showLoop (conf : Cfg → Conf.Conf) (cache : Conf.Cache) (llh : String) : List Entry → List Plugin → Res (List Row)
  | [], _ => .ok []
  | e :: l, seen =>
    if e.plugin ∈ seen then showLoop conf cache llh l seen
    else do
      let rs ← pluginRows conf cache llh e.plugin.provides e.plugin.configs
      let rest ← showLoop conf cache llh l (seen ++ [e.plugin])
      return rs ++ rest

/-- `show_config` (component.py 504-550). -/
def showConfig (conf : Cfg → Conf.Conf) (cache : Conf.Cache) (c : Comp) (fuel : Nat) (names : List String) : Res (List Row) := do
  let deps ← deduceDeps c.registry "batch_size" fuel names []
  showLoop conf cache c.llhName deps []

/-! ### Copies -/

/-- A component class: its name and what its constructor registers. -/
structure Class where
  name : String
  plugins : List Plugin

/-- A simulated component with its class and its bins, if set. -/
structure Obj (B : Type) where
  cls : Class
  comp : Comp
  bins : Option (B × Option String)

/-- The check of `set_binning` (component.py 64-65); the type may be `None`. -/
def badType {B : Type} (bins : Option (B × Option String)) : Bool :=
  match bins with
  | some (_, some t) => decide (t ≠ "irreg" ∧ t ≠ "meshgrid")
  | _ => false

/-- The constructor (component.py 35-69, 202-205, components/*.py). -/
def construct {B : Type} (cls : Class) (name llh : Option String) (bins : Option (B × Option String)) : Res (Obj B) :=
  if badType bins then .error .valueError
  else
    match registerAll [] cls.plugins with
    | (_, .error e) => .error e
    | (reg, .ok ()) =>
      .ok ⟨cls, { name := name.getD cls.name, llhName := llh.getD (cls.name ++ "_llh"), rateName := "", registry := reg }, bins⟩

/-- `new_component` (component.py 552-569). -/
def newComponent {B : Type} (c : Obj B) (llh : Option String) (passBinning : Bool) : Res (Obj B) :=
  if passBinning then
    match c.bins with
    | none => .error .valueError
    | some b => construct c.cls (some (c.comp.name ++ "_copy")) llh (some b)
  else construct c.cls (some (c.comp.name ++ "_copy")) llh none

end Verif.Show
