/-
Specification vocabulary for shipped instructions: what it means for the likelihoods of a context to come from an instruction
file, and the parameter names one reads off the file.
-/
import Verif.Model.ShippedContext
import Verif.Spec.Context
import Verif.Spec.Config
import Verif.Spec.Deps

namespace Verif.Shipped
open Verif Ctx

section
variable {K : Type}

/-- A component of the context is the one of the file: it needs the parameters its class needs.  Histograms and simulations
are arbitrary. -/
def CompFrom (i : InstructData) (L : LlhData) (d : String × String) (e : String × Res (CompBuild K)) : Prop :=
  e.1 = d.1 ∧ ∃ b, e.2 = .ok b ∧ compNeeded i.sigmas L.name L.binsOn d.1 d.2 = .ok b.comp.needed

/-- A likelihood of the context is the one of the file. -/
structure LlhFrom (i : InstructData) (L : LlhData) (e : String × LInstr K) : Prop where
  name : e.1 = L.name
  made : ∃ o, e.2.make = .ok o ∧ Fresh o ∧ o.aliases = L.aliases
  copy : e.2.copy = some L.copies
  comps : List.Forall₂ (CompFrom i L) L.comps e.2.comps

end

/-- All parameters the components of the file need, under the names the file gives them. -/
def neededNames (i : InstructData) : List String :=
  i.llhs.flatMap fun L => L.comps.flatMap fun d =>
    match compNeeded i.sigmas L.name L.binsOn d.1 d.2 with
    | .error _ => []
    | .ok n => n.map (Llh.callerName L.aliases)

/-- The sigma map `name` as configured for the likelihood (or its default if not configured) names the parameter `x`. -/
def SigmaParameter (sigmas : PyDict String Conf.CVal) (llh name x : String) : Prop :=
  ∃ m ∈ sigmaMaps, m.name = name ∧ ∃ a, Conf.namedParameter name a = some (.str x) ∧
    (Conf.valueFor { data := sigmas } name (some llh) = some a ∨ (sigmas.get? name = none ∧ m.default = some a))

end Verif.Shipped
