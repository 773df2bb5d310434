/-
Model of the configuration cache and of configuration resolution: `appletree/share.py` 4-71,
`appletree/config.py` 104-141, 160-163, 203-231, 418-554, `appletree/utils.py` 147-204 (`get_file_path`),
645-649 and `appletree/plugin.py` 33-51, 94-106.

Simplifications: list elements are strings or opaque; a number given as a file name raises TypeError (python
accepts an int as a file descriptor); the file system is constant; per-likelihood dictionaries have string keys, so the
likelihood name `None` is never found in one.
-/
import Verif.Base.Py
import Mathlib.Data.Rat.Defs
import Mathlib.Order.Defs.LinearOrder
import Mathlib.Algebra.Field.Defs

namespace Verif.Conf
open Verif

/-- An element of a list value. -/
inductive Item
  | str (s : String)
  | other (tag : Nat)
  deriving DecidableEq

/-- A value that is not a dictionary; `other` is anything but float, int, list or str. -/
inductive Atom
  | num (q : ℚ)
  | str (s : String)
  | list (l : List Item)
  | other (tag : Nat)
  deriving DecidableEq

/-- A configuration value. -/
inductive CVal
  | atom (a : Atom)
  | dict (d : PyDict String Atom)
  deriving DecidableEq

/-- `RecordingDict` (share.py 4-26). -/
structure Cache where
  data : PyDict String CVal := []
  accessed : List String := []
  deriving DecidableEq

/-- `self.accessed_keys.add(key)` (share.py 10, 14). -/
def Cache.record (c : Cache) (k : String) : Cache :=
  { c with accessed := if k ∈ c.accessed then c.accessed else c.accessed ++ [k] }

/-- `__getitem__` (share.py 9-11): recorded even when the key is missing. -/
def Cache.get (c : Cache) (k : String) : Cache × Res CVal := (c.record k, c.data.getItem k)

/-- `__setitem__` (share.py 13-15). -/
def Cache.set (c : Cache) (k : String) (v : CVal) : Cache :=
  { c.record k with data := c.data.set k v }

/-- `dict.update({k: v})`, not overridden, hence not recorded. -/
def Cache.put (c : Cache) (k : String) (v : CVal) : Cache := { c with data := c.data.set k v }

/-- `clear` (share.py 23-25). -/
def Cache.clear (_ : Cache) : Cache := {}

/-- `check_unused_configs` (utils.py 645-649): the reported names. -/
def unused (c : Cache) : List String := c.data.keys.filter (fun k => k ∉ c.accessed)

/-! ### Finding files -/

/-- What `get_file_path` asks of the outside world. -/
structure FS where
  isFile : String → Bool
  pathExists : String → Bool
  pkg : String
  aux : Option (String → Option String) := none
  mongo : String → Option String := fun _ => none
  /-- the file can be read as a map by `load_json` and the checks of `Map.build` -/
  loads : String → Bool := fun _ => true

/-- `s.startswith("/")`. -/
def isAbs (s : String) : Bool := s.toList.head? = some '/'

/-- `os.path.join(a, b)` on posix. -/
def pyJoin (a b : String) : String :=
  if isAbs b then b
  else if a.toList.getLast? = some '/' ∨ a.toList = [] then a ++ b else a ++ "/" ++ b

/-- `_get_abspath` (utils.py 126-137). -/
def getAbspath (fs : FS) (s : String) : Option String :=
  (["maps", "data", "parameters", "instructs"].map (fun d => pyJoin (pyJoin fs.pkg d) s)).find? fs.pathExists

/-- Steps 3-5 of `get_file_path` (utils.py 175-204). -/
def getFileRest (fs : FS) (s : String) : Res String :=
  match getAbspath fs s with
  | some p => .ok p
  | none =>
    match fs.aux.bind (fun f => f s) with
    | some p => .ok p
    | none =>
      match fs.mongo s with
      | some p => .ok p
      | none => .error .runtimeError

/-- `get_file_path` (utils.py 147-204). -/
def getFilePath (fs : FS) (s : String) (c : Cache) : Cache × Res String :=
  if fs.isFile s then (c, .ok s)
  else if c.data.has "url_base" then
    match c.get "url_base" with
    | (c, .ok (.atom (.str u))) =>
      if isAbs u then
        if fs.pathExists (pyJoin u s) then (c, .ok (pyJoin u s)) else (c, getFileRest fs s)
      else (c, getFileRest fs s)
    | (c, .ok _) => (c, .error .attributeError)
    | (c, .error e) => (c, .error e)
  else (c, getFileRest fs s)

/-! ### set_global_config -/

/-- The inner loop for a per-likelihood dictionary (share.py 62-68); values of other types are skipped. -/
def innerLoop (fs : FS) : List (String × Atom) → PyDict String Atom → Cache → Cache × Res (PyDict String Atom)
  | [], d, c => (c, .ok d)
  | (k, .str s) :: r, d, c =>
    match getFilePath fs s c with
    | (c, .ok p) => innerLoop fs r (d.set k (.str p)) c
    | (c, .error e) => (c, .error e)
  | (k, .num q) :: r, d, c => innerLoop fs r (d.set k (.num q)) c
  | (k, .list l) :: r, d, c => innerLoop fs r (d.set k (.list l)) c
  | (_, .other _) :: r, d, c => innerLoop fs r d c

/-- `set_global_config` (share.py 47-71). -/
def setGlobal (fs : FS) : List (String × CVal) → Cache → Cache × Res Unit
  | [], c => (c, .ok ())
  | (k, .atom (.num q)) :: r, c => setGlobal fs r (c.put k (.atom (.num q)))
  | (k, .atom (.list l)) :: r, c => setGlobal fs r (c.put k (.atom (.list l)))
  | (k, .atom (.str s)) :: r, c =>
    match getFilePath fs s c with
    | (c, .ok p) => setGlobal fs r (c.put k (.atom (.str p)))
    | (c, .error e) => (c, .error e)
  | (k, .dict d) :: r, c =>
    match innerLoop fs d [] c with
    | (c, .ok d') => setGlobal fs r (c.put k (.dict d'))
    | (c, .error e) => (c, .error e)
  | (_, .atom (.other _)) :: _, c => (c, .error .notImplemented)

/-! ### Resolution -/

/-- A `Config`: its name and default (`none` is `OMITTED`); a dictionary default is refused by the constructor
(config.py 93-97). -/
structure Conf where
  name : String
  default : Option Atom := none
  deriving DecidableEq

/-- `get_default` (config.py 99-104). -/
def getDefault : Option Atom → Res Atom
  | some a => .ok a
  | none => .error .valueError

/-- `value[llh_name]` or the value itself (config.py 132-141). -/
def pick (v : CVal) (llh : Option String) : Res Atom :=
  match v with
  | .atom a => .ok a
  | .dict d =>
    match llh.bind d.get? with
    | some a => .ok a
    | none => .error .valueError

/-- `transform(value)`: `get_file_path` or nothing (config.py 128-129, 205-208). -/
def transformed (fs : FS) (useFile : Bool) (a : Atom) (c : Cache) : Cache × Res Atom :=
  if useFile then
    match a with
    | .str s =>
      match getFilePath fs s c with
      | (c, .ok p) => (c, .ok (.str p))
      | (c, .error e) => (c, .error e)
    | _ => (c, .error .typeError)
  else (c, .ok a)

/-- `_resolve_cached_config` (config.py 112-141). -/
def resolve (fs : FS) (useFile : Bool) (cf : Conf) (llh : Option String) (c : Cache) : Cache × Res Atom :=
  if c.data.has cf.name then
    match c.get cf.name with
    | (c, .ok v) => (c, pick v llh)
    | (c, .error e) => (c, .error e)
  else
    match getDefault cf.default with
    | .error e => (c, .error e)
    | .ok a =>
      match transformed fs useFile a c with
      | (c, .error e) => (c, .error e)
      | (c, .ok a) => (c.set cf.name (.atom a), .ok a)

/-- `Map.build` up to loading (config.py 203-216): the file path used. -/
def buildMap (fs : FS) (cf : Conf) (llh : Option String) (c : Cache) : Cache × Res String :=
  match resolve fs true cf llh c with
  | (c, .error e) => (c, .error e)
  | (c, .ok (.str p)) =>
    match getFilePath fs p c with
    | (c, .error e) => (c, .error e)
    | (c, .ok p') => if fs.loads p' then (c, .ok p) else (c, .error .valueError)
  | (c, .ok _) => (c, .error .typeError)

/-! ### SigmaMap -/

/-- `get_configs` (config.py 499-528); `attr` is `self.llh_name`, `arg` the argument. -/
def getConfigs (cf : Conf) (attr arg : Option String) (c : Cache) : Cache × Res Atom :=
  let llh := match arg with | none => attr | some l => some l
  let r : Cache × Res CVal :=
    if c.data.has cf.name then c.get cf.name
    else match getDefault cf.default with
      | .error e => (c, .error e)
      | .ok a => (c.set cf.name (.atom a), .ok (.atom a))
  match r with
  | (c, .error e) => (c, .error e)
  | (c, .ok v) => (c, pick v llh)

/-- `required_parameter` (config.py 530-540). -/
def requiredParameter (cf : Conf) (attr arg : Option String) (c : Cache) : Cache × Res (Option Item) :=
  match getConfigs cf attr arg c with
  | (c, .error e) => (c, .error e)
  | (c, .ok (.list l)) =>
    (c, .ok (if l.length = 4 then l.getLast? else some (.str (cf.name ++ "_sigma"))))
  | (c, .ok _) => (c, .ok none)

/-- The atom of a list element. -/
def Item.toAtom : Item → Atom
  | .str s => .str s
  | .other n => .other n

/-- `_resolve_sigma_value` (config.py 418-433). -/
def sigmaValue (a : Atom) (i : Nat) : Res Atom :=
  match a with
  | .list l =>
    match l[i]? with
    | some x => .ok x.toAtom
    | none => .error .indexError
  | .str s => .ok (.str s)
  | _ => .error .valueError

/-- `_update_sigma_cache` (config.py 435-451). -/
def updateSigmaCache (mapName : String) (value : Atom) (llh : String) (c : Cache) : Cache × Res Unit :=
  let c := if c.data.has mapName then c else c.set mapName (.dict [])
  match c.get mapName with
  | (c, .ok (.dict d)) =>
    if (d.get? llh).getD value ≠ value then (c, .error .valueError)
    else ({ c with data := c.data.set mapName (.dict (d.set llh value)) }, .ok ())
  | (c, .ok (.atom _)) => (c, .ok ())
  | (c, .error e) => (c, .error e)

/-- Name of the sub-map for `sigma` (config.py 475-478). -/
def subName (name sigma : String) : String := name ++ "_" ++ sigma

def sigmas : List String := ["median", "lower", "upper"]

/-- The loop creating the three maps (config.py 467-487). -/
def sigmaLoop (cf : Conf) (configs dflt : Atom) (llh : Option String) :
    List (String × Nat) → Cache → Cache × Res (List Conf)
  | [], c => (c, .ok [])
  | (sg, i) :: r, c =>
    match sigmaValue dflt i with
    | .error e => (c, .error e)
    | .ok d =>
      let sub : Conf := ⟨subName cf.name sg, some d⟩
      let step : Cache × Res Unit :=
        match llh with
        | none => (c, .ok ())
        | some l =>
          match sigmaValue configs i with
          | .error e => (c, .error e)
          | .ok v => updateSigmaCache sub.name v l c
      match step with
      | (c, .error e) => (c, .error e)
      | (c, .ok ()) =>
        match sigmaLoop cf configs dflt llh r c with
        | (c, .error e) => (c, .error e)
        | (c, .ok subs) => (c, .ok (sub :: subs))

/-- Building the maps one after the other (config.py 489-491). -/
def buildMaps (fs : FS) (llh : Option String) : List Conf → Cache → Cache × Res (List String)
  | [], c => (c, .ok [])
  | s :: r, c =>
    match buildMap fs s llh c with
    | (c, .error e) => (c, .error e)
    | (c, .ok p) =>
      match buildMaps fs llh r c with
      | (c, .error e) => (c, .error e)
      | (c, .ok ps) => (c, .ok (p :: ps))

/-- A list of more than four elements (config.py 459-462). -/
def tooLong : Atom → Bool
  | .list l => decide (4 < l.length)
  | _ => false

/-- `SigmaMap.build` (config.py 453-497): the files of median, lower and upper. -/
def sigmaBuild (fs : FS) (cf : Conf) (llh : Option String) (c : Cache) : Cache × Res (List String) :=
  match getConfigs cf llh none c with
  | (c, .error e) => (c, .error e)
  | (c, .ok configs) =>
    match getDefault cf.default with
    | .error e => (c, .error e)
    | .ok dflt =>
      if tooLong configs || tooLong dflt then (c, .error .valueError)
      else
        match sigmaLoop cf configs dflt llh [("median", 0), ("lower", 1), ("upper", 2)] c with
        | (c, .error e) => (c, .error e)
        | (c, .ok subs) =>
          match buildMaps fs llh subs c with
          | (c, .error e) => (c, .error e)
          | (c, .ok files) =>
            match requiredParameter cf llh none c with
            | (c, .error e) => (c, .error e)
            | (c, .ok _) => (c, .ok files)

/-- `SigmaMap.apply` (config.py 542-554) on the values of the three maps; `σ` is `none` without parameter. -/
def sigmaApply {F : Type} [Field F] [LinearOrder F] (median lower upper : F) (σ : Option F) : F :=
  let s := σ.getD 1
  median + (if 0 < s then (upper - median) * s else (median - lower) * s)

/-! ### Histories -/

/-- Everything that reads configurations (no `set_config`, no `clear_cache`). -/
inductive ReadOp
  | resolve (useFile : Bool) (cf : Conf) (llh : Option String)
  | buildMap (cf : Conf) (llh : Option String)
  | sigmaBuild (cf : Conf) (llh : Option String)
  | required (cf : Conf) (attr arg : Option String)
  | filePath (s : String)

/-- The cache after a reading operation, successful or not. -/
def ReadOp.run (fs : FS) : ReadOp → Cache → Cache
  | .resolve u cf l, c => (Conf.resolve fs u cf l c).1
  | .buildMap cf l, c => (Conf.buildMap fs cf l c).1
  | .sigmaBuild cf l, c => (Conf.sigmaBuild fs cf l c).1
  | .required cf a b, c => (requiredParameter cf a b c).1
  | .filePath s, c => (getFilePath fs s c).1

def runReads (fs : FS) (ops : List ReadOp) (c : Cache) : Cache := ops.foldl (fun c o => o.run fs c) c

/-- Dictionary-level history of the cache. -/
inductive DictOp
  | getItem (k : String)
  | setItem (k : String) (v : CVal)
  | update (k : String) (v : CVal)
  | contains (k : String)
  | clear

def DictOp.run : DictOp → Cache → Cache
  | .getItem k, c => (c.get k).1
  | .setItem k v, c => c.set k v
  | .update k v, c => c.put k v
  | .contains _, c => c
  | .clear, c => c.clear

/-! ### Plugin instances -/

/-- The class-level configuration objects of a plugin class (name and last built value) and the instances made so
far, each with its own deep copies (plugin.py 33-51). -/
structure PluginWorld where
  cls : PyDict String Atom := []
  instances : List (PyDict String Atom) := []

/-- `for config in self.takes_config.values(): config.build(...)` (plugin.py 44-45). -/
def buildAll (fs : FS) (llh : Option String) : List Conf → PyDict String Atom → Cache →
    Cache × PyDict String Atom × Res Unit
  | [], cls, c => (c, cls, .ok ())
  | cf :: r, cls, c =>
    match resolve fs false cf llh c with
    | (c, .error e) => (c, cls, .error e)
    | (c, .ok a) => buildAll fs llh r (cls.set cf.name a) c

/-- `Plugin.__init__` (plugin.py 33-51). -/
def construct (fs : FS) (configs : List Conf) (llh : Option String) (w : PluginWorld) (c : Cache) :
    Cache × PluginWorld :=
  match buildAll fs llh configs w.cls c with
  | (c, cls, .ok ()) => (c, ⟨cls, w.instances ++ [cls]⟩)
  | (c, cls, .error _) => (c, ⟨cls, w.instances⟩)

/-- `lineage["takes_config"]` of an instance (plugin.py 94-106): read from the class. -/
def lineage (w : PluginWorld) (_i : Nat) : PyDict String Atom := w.cls

end Verif.Conf
