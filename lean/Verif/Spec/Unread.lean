/-
Specification vocabulary for parameters that no likelihood reads.
-/
import Verif.Model.Context
import Verif.Spec.Likelihood
import Verif.Spec.Walk
import Verif.Props.Parameter

namespace Verif.Ctx
open Verif

section
variable {K : Type}

/-- The result depends on the parameters of the given names only. -/
def ReadsOnly {A : Type} (needed : List String) (f : PyDict String XF → A) : Prop :=
  ∀ p q, (∀ r ∈ needed, p.get? r = q.get? r) → f p = f q

/-- The component reads only the parameters it says it needs. -/
def Honest : Llh.LComp K XF → Prop
  | .sim nd h _ => ∀ key batch, ReadsOnly nd (h key batch)
  | .fixed nd h _ => ReadsOnly nd h
  | .other _ => True

/-- No component of the likelihood needs a parameter that the caller gives as `n`; the others are among the `names`. -/
def Obj.Unread (names : List String) (n : String) : Obj K → Prop
  | .binned al _ st => Llh.PlainAliases al ∧ ∀ m c, (m, c) ∈ st.components →
      Honest c ∧ ∀ r ∈ c.needed, Llh.callerName al r ∈ names ∧ Llh.callerName al r ≠ n
  | .lit al _ _ st => Llh.PlainAliases al ∧ ∀ m c, (m, c) ∈ st.components →
      ∃ nd, (∀ key batch, ReadsOnly nd (c key batch)) ∧ ∀ r ∈ nd, Llh.callerName al r ∈ names ∧ Llh.callerName al r ≠ n

end
end Verif.Ctx

namespace Verif.Walk
open Verif Parameter
open scoped ENNReal

open Classical in
/-- The prior density of one parameter as a function of its value: zero outside the allowed range. -/
noncomputable def priorDensity (sig : Solver) (s : Setting) (t : ℝ) : ℝ≥0∞ :=
  match s.allowed with
  | some (lo, hi) => if lo ≤ t ∧ t ≤ hi then ENNReal.ofReal (Real.exp (priorLogDensity sig s.prior t)) else 0
  | none => 0

end Verif.Walk
