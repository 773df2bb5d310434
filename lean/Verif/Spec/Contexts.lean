/-
Vocabulary of C106.
-/
import Verif.Model.Contexts
import Verif.Model.Whole
import Verif.Spec.Register

namespace Verif.Llh
open Verif Comp

section
variable {K V : Type}

/-- A likelihood with a simulated component. -/
def LSpec.Simulates (l : LSpec K V) : Prop := ∃ a, Except.ok (Reg.sim a) ∈ l.parts

/-- The histograms of a component do not depend on where its code is kept. -/
def Portable (wrap : Comp → LComp K V) : Prop := ∀ (c : Comp) (t : Option (Nat × Code)), wrap { c with target := t } = wrap c

/-- Every class used in an instruction is portable. -/
def CSpec.Portable (c : CSpec K V) : Prop := ∀ l ∈ c.likelihoods, Llh.Portable l.wrap

/-- Every context of the session so far uses portable classes. -/
def AllPortable (ops : List (SOp K V)) : Prop := ∀ c, SOp.make c ∈ ops → c.Portable

end
end Verif.Llh
