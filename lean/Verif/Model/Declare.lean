/-
Model of how plugins declare what they take: `takes_config` (`appletree/config.py` 30-63), `Plugin.__init__`, `sanity_check` and
`__call__` (`appletree/plugin.py` 33-59, 75-92) and `ConstantSet.build` (config.py 578-594).

Simplifications: a configuration object is an identity and a name; building one is an argument (its own model is `Config`);
python's attribute lookup is the instance first, then the class; numbers are rational.
-/
import Verif.Base.Py
import Mathlib.Data.Rat.Defs
import Mathlib.Algebra.Order.Ring.Rat
import Mathlib.Algebra.Order.Group.Unbundled.Abs

namespace Verif.Declare
open Verif

/-! ### Declaring configurations -/

/-- A configuration object: its identity and its name (config.py 70-92). -/
structure Decl where
  id : Nat
  name : String
  deriving DecidableEq

/-- An argument of the decorator. -/
inductive Item
  | config (d : Decl)
  | other

/-- The classes that have an attribute `takes_config` of their own, and the attribute `taken_by` of the configurations. -/
structure World where
  own : PyDict String (PyDict String Decl)
  takenBy : PyDict Nat String

/-- `plugin_class.takes_config`: the first class in the method resolution order that has one. -/
def World.lookup (w : World) (mro : List String) : Option (PyDict String Decl) := mro.findSome? (PyDict.get? w.own)

/-- `for config in configs: …` (config.py 45-49). -/
def collect (cls : String) : List Item → PyDict String Decl → PyDict Nat String → PyDict Nat String × Res (PyDict String Decl)
  | [], r, t => (t, .ok r)
  | .other :: _, _, t => (t, .error .runtimeError)
  | .config d :: l, r, t => collect cls l (r.set d.name d) (t.set d.id cls)

/-- `takes_config(*configs)(plugin_class)` (config.py 30-63); `parents` is the rest of the method resolution order. -/
def decorate (w : World) (cls : String) (parents : List String) (items : List Item) : World × Res Unit :=
  match collect cls items [] w.takenBy with
  | (t, .error e) => ({ w with takenBy := t }, .error e)
  | (t, .ok result) =>
    match w.lookup (cls :: parents) with
    | none => ({ own := w.own.set cls result, takenBy := t }, .ok ())
    | some d =>
      if d.length = 0 then ({ own := w.own.set cls result, takenBy := t }, .ok ())
      else if result.any (fun p => d.has p.1) then ({ w with takenBy := t }, .error .runtimeError)
      else ({ own := w.own.set cls (d.update result), takenBy := t }, .ok ())

/-! ### Making an instance -/

/-- What a plugin class declares, the names of the arguments of its `simulate` with the number of those that have defaults,
and its configurations. -/
structure Cls where
  name : String
  dependsOn : List String
  provides : List String
  parameters : List String
  args : List String
  defaults : Nat
  configs : PyDict String Decl

/-- What an attribute can be: the name of the likelihood, a copy of a configuration, names, or the method. -/
inductive Attr
  | llh (n : Option String)
  | copyOf (d : Decl)
  | names (l : List String)
  | method (args : List String)
  deriving DecidableEq

/-- The attributes of the class. -/
def classAttr (c : Cls) (k : String) : Option Attr :=
  if k = "depends_on" then some (.names c.dependsOn)
  else if k = "provides" then some (.names c.provides)
  else if k = "parameters" then some (.names c.parameters)
  else if k = "simulate" then some (.method c.args)
  else none

/-- Properties of the class, which cannot be assigned (plugin.py 94-110). -/
def properties : List String := ["lineage", "lineage_hash"]

/-- `inspect.getfullargspec(self.simulate)[0][i]`. -/
def argument (c : Cls) (i : Nat) : Res String :=
  match c.args[i]? with
  | some a => .ok a
  | none => .error .indexError

/-- `for i, depend in enumerate(self.depends_on, start=3)` (plugin.py 87-92). -/
def checkInputs (c : Cls) : Nat → List String → Res Unit
  | _, [] => .ok ()
  | i, d :: l => do
    let a ← argument c i
    if a ≠ d then .error .valueError else checkInputs c (i + 1) l

/-- `sanity_check` (plugin.py 75-92). -/
def sanityCheck (c : Cls) : Res Unit := do
  let a ← argument c 1
  if a ≠ "key" then .error .valueError
  else
    let b ← argument c 2
    if b ≠ "parameters" then .error .valueError else checkInputs c 3 c.dependsOn

/-- `for config in self.takes_config.values(): config.build(self.llh_name)`. -/
def buildAll {S : Type} (build : Decl → S → S × Res Unit) : List Decl → S → S × Res Unit
  | [], s => (s, .ok ())
  | d :: l, s =>
    match build d s with
    | (s, .error e) => (s, .error e)
    | (s, .ok ()) => buildAll build l s

/-- `for config in self.takes_config.values(): setattr(self, config.name, deepcopy(config))`. -/
def setAll : List Decl → PyDict String Attr → Res (PyDict String Attr)
  | [], a => .ok a
  | d :: l, a => if d.name ∈ properties then .error .attributeError else setAll l (a.set d.name (.copyOf d))

/-- `Plugin.__init__` (plugin.py 33-55): the state the builds leave, and the attributes of the instance. -/
def init {S : Type} (build : Decl → S → S × Res Unit) (c : Cls) (llh : Option String) (s : S) : S × Res (PyDict String Attr) :=
  if c.dependsOn = [] then (s, .error .valueError)
  else if c.provides = [] then (s, .error .valueError)
  else
    match buildAll build (c.configs.map Prod.snd) s with
    | (s, .error e) => (s, .error e)
    | (s, .ok ()) =>
      (s, do
        sanityCheck c
        setAll (c.configs.map Prod.snd) [("llh_name", .llh llh)])

/-- `self.k` for an instance. -/
def getAttr (c : Cls) (inst : PyDict String Attr) (k : String) : Option Attr := (inst.get? k).or (classAttr c k)

/-- A call of a python function with positional arguments: the values its arguments have. -/
def bindArgs {V : Type} (args : List String) (defaults : Nat) (vals : List V) : Res (PyDict String V) :=
  if args.length < vals.length ∨ vals.length + defaults < args.length then .error .typeError else .ok (args.zip vals)

/-- `plugin(key, parameters, *inputs)` (plugin.py 57-59): `self.simulate` is looked up on the instance. -/
def call {V : Type} (c : Cls) (inst : PyDict String Attr) (self key parameters : V) (inputs : List V) : Res (PyDict String V) :=
  match getAttr c inst "simulate" with
  | some (.method args) => bindArgs args c.defaults (self :: key :: parameters :: inputs)
  | _ => .error .typeError

/-! ### Sets of constants -/

/-- An entry of the second part of the value. -/
inductive Row
  | scalar (q : ℚ)
  | row (l : List ℚ)

/-- The value of a set of constants: a list of two lists, or of another number of parts. -/
inductive SetValue
  | parts (n : Nat)
  | pair (names : List String) (rows : List Row)

/-- `[len(v) for v in self.value[1]]`: the rows, or TypeError. -/
def rowsOf : List Row → Res (List (List ℚ))
  | [] => .ok []
  | .scalar _ :: _ => .error .typeError
  | .row l :: r => do
    let rs ← rowsOf r
    return l :: rs

/-- `np.isclose(a, b)` with its default tolerances. -/
def isclose (a b : ℚ) : Bool := |a - b| ≤ 1 / 100000000 + 1 / 100000 * |b|

/-- `ConstantSet.build` after the value was looked up (config.py 580-594): `set_volume` and the arrays by name. -/
def setBuild : SetValue → Res (Nat × PyDict String (List ℚ))
  | .parts _ => .error .assertionError
  | .pair names rows =>
    if names.length ≠ rows.length then .error .assertionError
    else do
      let rs ← rowsOf rows
      match rs with
      | [] => .error .indexError
      | r :: _ =>
        if rs.all (fun x => isclose x.length r.length) then return (r.length, PyDict.ofList (names.zip rs))
        else .error .assertionError

end Verif.Declare
