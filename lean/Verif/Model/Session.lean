/-
Model of a session in which options are changed and components are deduced and compiled again: the configuration cache of
Model/Config and the components and function cache of Model/Component put together with the plugin instances that the generated code
makes.  `appletree/component.py` 355-365, 435-438, 491-502, `appletree/plugin.py` 33-51, `appletree/context.py` 35-45, 430-433,
`appletree/share.py` 42-44.

Simplifications.  A ConstantSet is not distinguished from a Constant.  Of the names that executing the code binds, the instances and the
function are kept.  `jit` is the identity: the values a function uses are those its instances have when it is called.
-/
import Verif.Model.Config
import Verif.Model.Component

namespace Verif.Session
open Verif Conf Comp

/-- The classes of options (config.py 154-178, 181-, 385-). -/
inductive Kind
  | constant
  | map
  | sigma
  deriving DecidableEq

/-- An option of a plugin. -/
structure Opt where
  kind : Kind
  conf : Conf

/-- What an option object holds after `build`: a value, the file of a map, the files of the three maps of a SigmaMap. -/
inductive Built
  | value (a : Atom)
  | file (p : String)
  | files (l : List String)
  deriving DecidableEq

/-- A plugin instance: its options by name. -/
abbrev Inst := PyDict String Built

/-- What stays the same during a session: the files, the classes in `appletree.plugins`, the options of the classes. -/
structure Env where
  fs : FS
  ns : PyDict String Plugin
  opt : Cfg → Opt

/-- `config.build(llh_name)` (config.py 160-163, 203-231, 453-497). -/
def buildOpt (fs : FS) (llh : String) (o : Opt) (c : Cache) : Cache × Res Built :=
  match o.kind with
  | .constant => let r := resolve fs false o.conf (some llh) c; (r.1, r.2.map .value)
  | .map => let r := buildMap fs o.conf (some llh) c; (r.1, r.2.map .file)
  | .sigma => let r := sigmaBuild fs o.conf (some llh) c; (r.1, r.2.map .files)

/-- The loops over the options in `Plugin.__init__` (plugin.py 43-51). -/
def buildOpts (fs : FS) (llh : String) : List Opt → Inst → Cache → Cache × Res Inst
  | [], inst, c => (c, .ok inst)
  | o :: os, inst, c =>
    match buildOpt fs llh o c with
    | (c, .error e) => (c, .error e)
    | (c, .ok b) => buildOpts fs llh os (inst.set o.conf.name b) c

/-- The name of an instance in the generated code (component.py 363). -/
def instName (plugin comp : String) : String := plugin ++ "_" ++ comp

/-- `{instance} = {plugin}('{llh}')` for each line of the worksheet (component.py 360-365) with `Plugin.__init__` (plugin.py 33-51):
the names bound so far stay bound if one fails. -/
def makeAll (E : Env) (llh comp : String) : List (String × Plugin) → PyDict String Inst → Cache → Cache × PyDict String Inst × Res Unit
  | [], g, c => (c, g, .ok ())
  | (n, p) :: r, g, c =>
    if p.dependsOn = [] ∨ p.provides = [] then (c, g, .error .valueError)
    else
      match buildOpts E.fs llh (p.configs.map E.opt) [] c with
      | (c, .error e) => (c, g, .error e)
      | (c, .ok inst) => makeAll E llh comp r (g.set (instName n comp) inst) c

/-- The state of a session: the configuration cache, the components and the function cache, the instances bound in each dictionary
that code is executed in, and which of these dictionaries the function `simulate` of a component looks its names up in. -/
structure State where
  conf : Cache := {}
  world : World
  globals : Nat → PyDict String Inst := fun _ => []
  sees : Nat → Option Nat := fun _ => none

/-- Change a function at one argument. -/
def upd {α : Type} (f : Nat → α) (i : Nat) (a : α) : Nat → α := fun j => if j = i then a else f j

/-- The argument of `set_config`: "configuration file name or dictionary". -/
inductive Arg
  | name (s : String)
  | dict (e : List (String × CVal))

/-- `set_global_config` (share.py 47-71): a string has no `items`. -/
def setConfig (fs : FS) (a : Arg) (c : Cache) : Cache × Res Unit :=
  match a with
  | .name _ => (c, .error .attributeError)
  | .dict e => setGlobal fs e c

/-- The first statements of `Context.__init__` (context.py 36-42, 430-433). -/
def contextConfig (fs : FS) (url : Option CVal) (e : List (String × CVal)) (c : Cache) : Cache × Res Unit :=
  match url with
  | none => setGlobal fs e c
  | some u =>
    match setGlobal fs [("url_base", u)] c with
    | (c, .error x) => (c, .error x)
    | (c, .ok ()) => setGlobal fs e c

/-- `config.required_parameter(llh_name)` for one option (component.py 328-332, config.py 143-144, 530-540); a name that is not a
string stays out of sight. -/
def requiredOf (E : Env) (llh : String) (c : Cache) (cfg : Cfg) : Res (Option String) :=
  match (E.opt cfg).kind with
  | .sigma => (requiredParameter (E.opt cfg).conf none (some llh) c).2.map (fun p => match p with | some (.str s) => some s | _ => none)
  | _ => .ok none

/-- What asking for the required parameters does to the cache: the defaults of SigmaMaps are remembered. -/
def readRequired (E : Env) (llh : String) : List Cfg → Cache → Cache
  | [], c => c
  | cfg :: r, c =>
    match (E.opt cfg).kind with
    | .sigma =>
      match requiredParameter (E.opt cfg).conf none (some llh) c with
      | (c, .error _) => c
      | (c, .ok _) => readRequired E llh r c
    | _ => readRequired E llh r c

/-- `deduce` (component.py 403-433) with the required parameters read from the cache. -/
def deduceStep (E : Env) (s : State) (i : Nat) (a : DeduceArgs) : State × Res Unit :=
  let comp := s.world.comps i
  let r := Comp.step s.world (.deduce i { a with required := requiredOf E comp.llhName s.conf })
  let conf := match deduceDeps comp.registry a.nodep a.fuel (outNames a.dataNames a.force) [] with
    | .error _ => s.conf
    | .ok deps => readRequired E comp.llhName ((worksheet deps).flatMap (fun p => p.configs)) s.conf
  ({ s with conf := conf, world := r.1 }, r.2)

/-- `compile` (component.py 435-438): the imports, the instances, the function; then `simulate` is read back through the cache, and
looks its names up in the dictionary it was found in. -/
def compileStep (E : Env) (s : State) (i : Nat) : State × Res Unit :=
  match (s.world.comps i).target with
  | none => (s, .error .attributeError)
  | some (id, code) =>
    match code.works.mapM (importClass E.ns) with
    | .error e => (s, .error e)
    | .ok cls =>
      match makeAll E code.llhName code.compName cls (s.globals id) s.conf with
      | (c, g, .error e) => ({ s with conf := c, globals := upd s.globals id g }, .error e)
      | (c, g, .ok ()) =>
        match Comp.step s.world (.compile i) with
        | (w, .error e) => ({ s with conf := c, globals := upd s.globals id g, world := w }, .error e)
        | (w, .ok ()) =>
          ({ conf := c, world := w, globals := upd s.globals id g, sees := upd s.sees i (w.cache.cache.get? (w.comps i).llhName) }, .ok ())

/-- What a user does. -/
inductive Op
  | setConfig (a : Arg)
  | context (url : Option CVal) (e : List (String × CVal))
  | deduce (i : Nat) (a : DeduceArgs)
  | compile (i : Nat)
  | clear

/-- One operation; an exception is caught by the user and the state stays as it is then. -/
def step (E : Env) (s : State) : Op → State × Res Unit
  | .setConfig a => let r := setConfig E.fs a s.conf; ({ s with conf := r.1 }, r.2)
  | .context u e => let r := contextConfig E.fs u e s.conf; ({ s with conf := r.1 }, r.2)
  | .deduce i a => deduceStep E s i a
  | .compile i => compileStep E s i
  | .clear => ({ s with conf := s.conf.clear, world := (Comp.step s.world .clear).1 }, .ok ())

/-- A session. -/
def run (E : Env) (s : State) (ops : List Op) : State := ops.foldl (fun s o => (step E s o).1) s

/-- The instance of a plugin that the simulator of component `i` calls. -/
def instanceOf (s : State) (i : Nat) (plugin : String) : Option Inst :=
  (s.sees i).bind (fun id => (s.globals id).get? (instName plugin (s.world.comps i).name))

/-- The parameter that the SigmaMap `o` of an instance made for `llh` reads when it is applied (config.py 542-547). -/
def appliedParameter (s : State) (o : Opt) (llh : String) : Res (Option Item) := (requiredParameter o.conf (some llh) none s.conf).2

end Verif.Session
