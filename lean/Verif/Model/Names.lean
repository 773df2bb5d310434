/-
Model of how the modules of the package bind names: `exporter` (utils.py 36-48) and the import statements of python.

Simplifications.  An object is known by where it was defined.  Loading a module that is being loaded gives it as far as it is (circular
imports); a submodule becomes an attribute of its package when it has been loaded.  Recursion is by fuel.
-/
import Verif.Base.Py

namespace Verif.Names
open Verif

/-- What a name can be bound to: something a module of the package defines, something from outside, or a module of the package. -/
inductive Obj
  | defined (mod name : String)
  | external (name : String)
  | module (name : String)
  deriving DecidableEq

/-- A statement at the level of a module, as far as names go. -/
inductive Stmt
  | define (name : String) (exported : Bool)          -- def, class or assignment; decorated with `export`
  | external (name : String)                          -- import of something outside the package
  | exporter (own : Bool)                             -- export, __all__ = exporter(export_self=own)
  | importAs (target as : String)
  | fromImport (src name as : String) (sub : Option String)   -- `sub`: the submodule of that name, if there is one
  | star (src : String)
  | use (name : String) (attrs : List String)         -- a name, and attributes of it, that the statement evaluates

/-- A module: its package and its name there, its statements, and the names the bodies of its functions look up when called. -/
structure Mod where
  parent : Option (String × String)
  body : List Stmt
  later : List (String × List String)

/-- The modules by full name. -/
abbrev Program := PyDict String Mod

/-- The names bound in a module, and its list `__all__` if it has one. -/
structure NS where
  names : PyDict String Obj := []
  all : Option (List String) := none

/-- `sys.modules`, and the modules whose statements were run, in order. -/
structure St where
  mods : PyDict String NS := []
  ran : List String := []

/-- The names of a module. -/
def St.ns (st : St) (m : String) : NS := (st.mods.get? m).getD {}

/-- Bind a name in a module. -/
def St.bind (st : St) (m n : String) (o : Obj) : St :=
  { st with mods := st.mods.set m { st.ns m with names := (st.ns m).names.set n o } }

/-- `exporter` (utils.py 36-48): the list starts with its own name or empty. -/
def St.exporter (st : St) (m : String) (own : Bool) : St :=
  let st := (st.bind m "export" (.defined m "export")).bind m "__all__" (.defined m "__all__")
  { st with mods := st.mods.set m { st.ns m with all := some (if own then ["exporter"] else []) } }

/-- `decorator` (utils.py 44-46): the name is added to the list and the object is given back. -/
def St.export (st : St) (m n : String) : St :=
  { st with mods := st.mods.set m { st.ns m with all := (st.ns m).all.map (· ++ [n]) } }

/-- The names `from m import *` takes: those of `__all__`, else those without a leading underscore. -/
def NS.exported (ns : NS) : List String :=
  ns.all.getD (ns.names.keys.filter (fun n => n.toList.head? ≠ some '_'))

/-- Bind the names of another module one after the other; a missing one is an AttributeError. -/
def bindAll (m : String) (src : PyDict String Obj) : List String → St → Res St
  | [], st => .ok st
  | n :: ns, st => match src.get? n with
    | some o => bindAll m src ns (st.bind m n o)
    | none => .error .attributeError

/-- Look up attributes of modules; attributes of other objects are not followed. -/
def walk (st : St) : Obj → List String → Res Unit
  | .module t, a :: rest => match (st.ns t).names.get? a with
    | some o => walk st o rest
    | none => .error .attributeError
  | _, _ => .ok ()

/-- Look up a name in a module, else among the names of python, and its attributes. -/
def lookup (builtin : List String) (st : St) (m n : String) (attrs : List String) : Res Unit :=
  match (st.ns m).names.get? n with
  | some o => walk st o attrs
  | none => if n ∈ builtin then .ok () else .error .nameError

/-- One statement of the module `m`; `ld` loads a module. -/
def exec (builtin : List String) (ld : St → String → Res St) (m : String) (st : St) : Stmt → Res St
  | .define n ex => .ok (if ex then (st.export m n).bind m n (.defined m n) else st.bind m n (.defined m n))
  | .external n => .ok (st.bind m n (.external n))
  | .exporter own => .ok (st.exporter m own)
  | .importAs t a => do
    let st ← ld st t
    return st.bind m a (.module t)
  | .fromImport src n a sub => do
    let st ← ld st src
    match (st.ns src).names.get? n with
    | some o => return st.bind m a o
    | none => match sub with
      | some s => do
        let st ← ld st s
        return st.bind m a (.module s)
      | none => .error .importError
  | .star src => do
    let st ← ld st src
    bindAll m (st.ns src).names (st.ns src).exported st
  | .use n attrs => do
    lookup builtin st m n attrs
    return st

/-- The package of a module is loaded before it. -/
def loadParent (ld : St → String → Res St) (md : Mod) (st : St) : Res St :=
  match md.parent with
  | none => .ok st
  | some p => ld st p.1

/-- Import a module: its package first, then its statements, then it becomes an attribute of the package. -/
def load (prog : Program) (builtin : List String) : Nat → St → String → Res St
  | 0, _, _ => .error .recursionError
  | fuel + 1, st, m =>
    if st.mods.has m then .ok st
    else match prog.get? m with
      | none => .error .importError
      | some md => do
        let st ← loadParent (load prog builtin fuel) md st
        if st.mods.has m then return st
        else
          let st1 : St := { mods := st.mods.set m {}, ran := st.ran ++ [m] }
          let st2 ← md.body.foldlM (exec builtin (load prog builtin fuel) m) st1
          match md.parent with
          | none => return st2
          | some p => return st2.bind p.1 p.2 (.module m)

end Verif.Names
