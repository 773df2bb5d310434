/-
What the kernel computes about the names of the shipped package.
-/
import Verif.Lemmas.Names
import Verif.Model.ShippedNames

namespace Verif.Names
open Verif

/-- All names that functions look up are found. -/
def laterOK (st : St) : Bool :=
  package.all (fun e => decide (e.1 ∈ st.ran) && e.2.later.all (fun u => decide (lookup builtinNames st e.1 u.1 u.2 = .ok ())))

/-- The modules whose names the package takes over. -/
def starred : List String := appletree.body.filterMap (fun s => match s with
  | .star m => some m
  | _ => none)

def isDefine (s : Stmt) : Option String := match s with
  | .define n _ => some n
  | _ => none

/-- Exported definitions are found in the package. -/
def exportsOK (st : St) : Bool :=
  starred.all (fun m => (((package.get? m).map Mod.body).getD []).all (fun s => match isDefine s with
    | none => true
    | some n => decide (n ∉ (st.ns m).exported) || decide ((st.ns "appletree").names.get? n = some (.defined m n))))

def pluginsOK (st : St) : Bool :=
  pluginClasses.all (fun c => decide (c = ("appletree.plugins.nestv2", "BandEnergiesClipEff")) ||
    decide ((st.ns "appletree.plugins").names.get? c.2 = some (.defined c.1 c.2)))

def instructOK (st : St) : Bool :=
  instructComponents.all (fun n => componentModules.any (fun m =>
    decide ((st.ns "appletree.components").names.get? n = some (.defined m n)) &&
    decide ((st.ns "appletree").names.get? n = some (.defined m n)))) &&
  instructTypes.all (fun n => decide ((st.ns "appletree").names.get? n = some (.defined "appletree.likelihood" n)))

/-- Everything at once, for one computation. -/
def shippedOK : Bool := match load package builtinNames 5 {} "appletree" with
  | .error _ => false
  | .ok st => laterOK st && exportsOK st && pluginsOK st && instructOK st

theorem shippedOK_true : shippedOK = true := by decide +kernel

end Verif.Names
