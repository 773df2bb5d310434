/-
Specification vocabulary for the names a package binds.
-/
import Verif.Model.Names

namespace Verif.Names
open Verif

/-- The object comes from a statement of the program: a definition in the module it names, an import from outside, or a module. -/
def FromProgram (prog : Program) : Obj → Prop
  | .defined m n => (∃ md ex, prog.get? m = some md ∧ Stmt.define n ex ∈ md.body) ∨
      ∃ md own, prog.get? m = some md ∧ Stmt.exporter own ∈ md.body ∧ (n = "export" ∨ n = "__all__")
  | .external n => ∃ m md, prog.get? m = some md ∧ Stmt.external n ∈ md.body
  | .module m => m ∈ prog.keys

/-- The names decorated with `export`, in order. -/
def decorated (body : List Stmt) : List String :=
  body.filterMap (fun s => match s with
    | .define n true => some n
    | _ => none)

/-- A program has been loaded from nothing. -/
def Loaded (prog : Program) (builtin : List String) (top : String) (st : St) : Prop :=
  ∃ fuel, load prog builtin fuel {} top = .ok st

/-- From `st` to `st'` the module `m` binds the name to the object; every other name, and every other module, is as before. -/
def BindsOnly (st st' : St) (m n : String) (o : Obj) : Prop :=
  (st'.ns m).names.get? n = some o ∧ (∀ k, k ≠ n → (st'.ns m).names.get? k = (st.ns m).names.get? k) ∧ ∀ x, x ≠ m → st'.ns x = st.ns x

end Verif.Names
