/-
Specification vocabulary for giving parameters other names (C155).
-/
import Verif.Spec.Unread

namespace Verif.Ctx
open Verif Parameter

section
variable {K : Type}

/-- A component's parameter `r`, known to the caller as one of the `names` with the first aliases, is known as the new name of that
with the second ones. -/
structure SeenAs (ρ : String → String) (names : List String) (al al' : PyDict String String) (r : String) : Prop where
  old : r ∉ al.keys
  new : r ∉ al'.keys
  given : Llh.callerName al r ∈ names
  renamed : Llh.callerName al' r = ρ (Llh.callerName al r)

/-- The same likelihood for a caller who gives the parameters other names: the same data and components, and aliases according
to the new names. -/
def Obj.Renamed (ρ : String → String) (names : List String) : Obj K → Obj K → Prop
  | .binned al data st, .binned al' data' st' => Llh.PlainAliases al ∧ Llh.PlainAliases al' ∧ data' = data ∧
      st'.components = st.components ∧ ∀ m c, (m, c) ∈ st.components → Honest c ∧ ∀ r ∈ c.needed, SeenAs ρ names al al' r
  | .lit al shape _ st, .lit al' shape' _ st' => Llh.PlainAliases al ∧ Llh.PlainAliases al' ∧ shape' = shape ∧
      st' = st ∧ ∀ m c, (m, c) ∈ st.components → ∃ nd, (∀ key batch, ReadsOnly nd (c key batch)) ∧ ∀ r ∈ nd, SeenAs ρ names al al' r
  | _, _ => False

/-- A dictionary with other names. -/
def renameKeys {V : Type} (ρ : String → String) (d : PyDict String V) : PyDict String V := d.map fun e => (ρ e.1, e.2)

/-- The same context with other names: the same settings and values under the new names, and the same likelihoods for them. -/
structure Renaming (ρ : String → String) (config config' : Config) (c c' : Ctx K) : Prop where
  inj : ∀ a ∈ config.keys, ∀ b ∈ config.keys, ρ a = ρ b → a = b
  reach : Reachable config c.pm
  reach' : Reachable config' c'.pm
  settings : config' = renameKeys ρ config
  vals : ∀ k ∈ config.keys, c'.pm.vals.get? (ρ k) = c.pm.vals.get? k
  likelihoods : List.Forall₂ (fun a b => Obj.Renamed ρ config.keys a.2 b.2) c.likelihoods c'.likelihoods

end
end Verif.Ctx
