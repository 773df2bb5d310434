/-
Specification vocabulary for likelihoods that share no fitted parameters (C157).
-/
import Verif.Spec.Renaming
import Verif.Spec.Walk

namespace Verif.Ctx
open Verif

section
variable {K : Type}

/-- The likelihood reads only parameters given under these names. -/
def Obj.Reads (names : List String) (o : Obj K) : Prop := Obj.Renamed id names o o

/-- How far the likelihood takes its key does not depend on the parameters. -/
def Obj.KeysAlike (o : Obj K) : Prop :=
  ∀ key batch p q k k' v v', o.logL key batch p = .ok (k, v) → o.logL key batch q = .ok (k', v') → k = k'

end
end Verif.Ctx

namespace Verif.Walk
open Verif Parameter

section
variable {K : Type} {d : Nat}

/-- The position with the coordinates of `x` in `S` and those of `y` elsewhere. -/
def mix (S : Fin d → Bool) (x y : Fin d → ℝ) : Fin d → ℝ := fun j => if S j then x j else y j

/-- Every likelihood reads, of the fitted parameters, only those in `S` or only those outside. -/
def Blocks (config : Config) (c : Ctx.Ctx K) (S : Fin d → Bool) : Prop :=
  ∀ m o, (m, o) ∈ c.likelihoods → o.KeysAlike ∧ ∃ (b : Bool) (names : List String), o.Reads names ∧
    (∀ k ∈ names, k ∈ config.keys) ∧ ∀ (j : Fin d) k, (parameterFit c.pm)[j.val]? = some k → k ∈ names → S j = b

end
end Verif.Walk
