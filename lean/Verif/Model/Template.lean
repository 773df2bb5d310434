/-
Model of `Context.get_template` (`appletree/context.py` 392-416).

A context is its fit (Model/Fit) and its likelihoods, each with its setup (Model/Whole) and its components by name; `none` stands
for a fixed component, which has no `simulate`.  The key is `randgen.get_key(seed)`.  What a component does at parameters that
are not finite is the argument `odd`.
-/
import Verif.Model.Fit
import Verif.Model.Whole

namespace Verif.Llh
open Verif

/-- A likelihood of a context, as far as `get_template` uses it (likelihood.py 102-104). -/
structure TLike (K : Type) where
  setup : Setup K
  comps : PyDict String (Option Comp.Comp)

section
variable {K I : Type}

/-- `component.simulate(key, batch_size, parameters)` with parameters that are floats. -/
def TLike.simulate (l : TLike K) (odd : K → Int → PyDict String XF → Res (K × List (List ℝ))) (c : Comp.Comp) (key : K) (batch : Int)
    (p : PyDict String XF) : Res (K × List (List ℝ)) :=
  match reals p with
  | some q => l.setup.run c key batch q
  | none => odd key batch p

/-- `get_template` (context.py 392-416). -/
noncomputable def getTemplate (odd : K → Int → PyDict String XF → Res (K × List (List ℝ))) (med : List (List XF) → List XF)
    (w : Fit.World I) (ls : PyDict String (TLike K)) (llh comp : String) (batch : Int) (key : K) :
    Fit.World I × Res (List (List ℝ)) :=
  match Fit.getPost med w .mpe with
  | (w', .error e) => (w', .error e)
  | (w', .ok p) =>
    (w', do
      let l ← ls.getItem llh
      let c ← l.comps.getItem comp
      match c with
      | none => .error .attributeError
      | some c => do
        let r ← l.simulate odd c key batch p
        return r.2)

end
end Verif.Llh
