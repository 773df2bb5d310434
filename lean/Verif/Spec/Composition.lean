/-
Vocabulary of C110: what is added to a likelihood or to a context.
-/
import Verif.Spec.Likelihood
import Verif.Spec.Context

namespace Verif.Llh
open Verif

/-- `h'` is the bin-wise sum of `h` and `g`, all of one shape. -/
def IsSum {V : Type} [Add V] (h g h' : Grid V) : Prop :=
  g.map List.length = h.map List.length ∧ h'.map List.length = h.map List.length ∧
    ∀ i j x y, at? h i j = some x → at? g i j = some y → at? h' i j = some (x + y)

/-- A component that simulates from a description of plugins, or one made from a table. -/
def Shipped {K F : Type} [Field F] [LinearOrder F] (c : LComp K F) : Prop :=
  (∃ d : SimDesc K F, c = d.comp) ∨ ∃ f r, c = fixedComp f r

end Verif.Llh

namespace Verif.Ctx
open Verif

/-- The likelihoods evaluated one after the other at `p`, each with the key the previous one returned; the last key is the one
left at the end. -/
inductive EvalsTo {K : Type} (batch : Int) (p : PyDict String XF) : List (String × Obj K) → K → List XF → K → Prop
  | nil (k : K) : EvalsTo batch p [] k [] k
  | cons {n o r k k' v vs k''} : GivesLogL o k batch p k' v → EvalsTo batch p r k' vs k'' →
      EvalsTo batch p ((n, o) :: r) k (v :: vs) k''

end Verif.Ctx
