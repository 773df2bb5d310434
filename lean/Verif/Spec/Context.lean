/-
Specification vocabulary for contexts: the copies asked for, the parameters components need, likelihoods evaluated one after
the other.
-/
import Verif.Model.Context
import Verif.Spec.Likelihood

namespace Verif.Ctx
open Verif Parameter

/-- Some likelihood asks that parameter `k` be a copy of parameter `v`. -/
def Copies (ls : List CopyInstr) (k v : String) : Prop := ∃ l ∈ ls, ∃ c, l.copy = some c ∧ (k, v) ∈ c

/-- `n` is copied by some likelihood. -/
def IsSource (ls : List CopyInstr) (n : String) : Prop := ∃ k, Copies ls k n

/-- `n` is made by copying. -/
def IsTarget (ls : List CopyInstr) (n : String) : Prop := ∃ v, Copies ls n v

/-- `n` is the rate of some component. -/
def IsRate (ls : List CopyInstr) (n : String) : Prop := ∃ l ∈ ls, ∃ k ∈ l.comps, n = k ++ "_rate"

/-- No copy of a copy, and each copied parameter has one source. -/
structure PlainCopies (ls : List CopyInstr) : Prop where
  present : ∀ l ∈ ls, l.copy ≠ none
  separate : ∀ n, IsTarget ls n → ¬ IsSource ls n
  single : ∀ k v v', Copies ls k v → Copies ls k v' → v = v'

section
variable {K : Type}

/-- The instruction as `update_parameter_config` sees it. -/
def copyInstr (ls : PyDict String (LInstr K)) : List CopyInstr := ls.map (fun l => ⟨l.2.copy, l.2.comps.keys⟩)

/-- The aliases of a likelihood. -/
def Obj.aliases : Obj K → PyDict String String
  | .binned al _ _ => al
  | .lit al _ _ _ => al

/-- A likelihood just made: no component, and aliases that are not chained. -/
def Fresh : Obj K → Prop
  | .binned al _ st => Llh.PlainAliases al ∧ st.components = [] ∧ st.needed = []
  | .lit al _ n st => Llh.PlainAliases al ∧ st.components = [] ∧ n = []

/-- Some component of the instruction needs a parameter that the caller gives as `x`. -/
def NeededByComponent (ls : PyDict String (LInstr K)) (x : String) : Prop :=
  ∃ n l o cn b q, (n, l) ∈ ls ∧ l.make = .ok o ∧ (cn, .ok b) ∈ l.comps ∧ q ∈ b.comp.needed ∧
    x = Llh.callerName o.aliases q

/-- The likelihood's own `get_log_likelihood` (C38 for binned data, C39 for literature curves), called with the likelihood's own
aliases and data, returns `v` and the key `k'`. -/
def GivesLogL (o : Obj K) (k : K) (batch : Int) (p : PyDict String XF) (k' : K) (v : XF) : Prop :=
  match o with
  | .binned al data st => Llh.getLogLikelihood al data st k batch p = .ok (k', v)
  | .lit al shape _ st => Llh.litLogLikelihood al shape st k batch p = .ok (k', v)

/-- The likelihoods evaluated one after the other at `p`, each with the key the previous one returned. -/
inductive Evals (batch : Int) (p : PyDict String XF) : List (String × Obj K) → K → List XF → Prop
  | nil (k : K) : Evals batch p [] k []
  | cons {n o r k k' v vs} : GivesLogL o k batch p k' v → Evals batch p r k' vs →
      Evals batch p ((n, o) :: r) k (v :: vs)

/-- The efficiencies a literature likelihood multiplies with are NaN or not negative (C39); nothing is asked of binned ones. -/
def GoodObj (p : PyDict String XF) : Obj K → Prop
  | .binned .. => True
  | .lit al _ _ st => Llh.PlainAliases al ∧
      ∀ key n c k e y f, (n, c) ∈ st.components → c key 1 (Llh.replaceAlias al p) = .ok (k, [e, y, f]) →
        ∀ x ∈ f, Llh.GoodEff x

end

/-- A likelihood with a data histogram. -/
def Obj.isBinned {K : Type} : Obj K → Bool
  | .binned .. => true
  | .lit .. => false

end Verif.Ctx
