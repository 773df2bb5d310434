/-
Specification vocabulary for declared interfaces.
-/
import Verif.Model.Declare

namespace Verif.Declare
open Verif

/-- The configuration objects among the arguments of the decorator. -/
def configsOf (items : List Item) : List Decl := items.filterMap (fun i => match i with | .config d => some d | .other => none)

/-- The last configuration with a given name. -/
def lastNamed (items : List Item) (k : String) : Option Decl := (configsOf items).reverse.find? (fun d => d.name = k)

/-- Names with a meaning of their own on a plugin. -/
def reserved : List String := ["llh_name", "depends_on", "provides", "parameters", "simulate", "lineage", "lineage_hash"]

/-- The dictionary of configurations is indexed by their names, each once. -/
structure Indexed (d : PyDict String Decl) : Prop where
  once : d.keys.Nodup
  names : ∀ k c, (k, c) ∈ d → c.name = k

/-- `simulate` takes the plugin, `key`, `parameters` and the inputs in the order declared, and possibly more. -/
def Wired (c : Cls) : Prop := ∃ self extra, c.args = self :: "key" :: "parameters" :: c.dependsOn ++ extra

/-- All these configurations are built without an exception, one after the other. -/
inductive Builds {S : Type} (build : Decl → S → S × Res Unit) : List Decl → S → S → Prop
  | nil (s : S) : Builds build [] s s
  | cons {d l s s' s''} : build d s = (s', .ok ()) → Builds build l s' s'' → Builds build (d :: l) s s''

end Verif.Declare
