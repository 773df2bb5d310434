/-
The normalisation of a template in single precision: `get_normalization` (component.py 160-176) and `hist *= normalization_factor`
(component.py 459-462, 622-625), with the rounding of `Model/Single.lean`.

External behaviour modelled here: `jnp.sum` adds the contents pairwise in some order that the compiler chooses, rounding each sum;
a product or quotient of single-precision numbers is the exact one rounded.  A Python number meeting an array is rounded first.
Neither overflow nor underflow is modelled.
-/
import Verif.Model.Single

namespace Verif.Single
open Verif

/-- An order of summation (component.py 163). -/
inductive Order
  | leaf (h : F32)
  | add (a b : Order)

/-- The contents that are added. -/
def Order.contents : Order → List F32
  | .leaf h => [h]
  | .add a b => a.contents ++ b.contents

/-- How many sums a content goes through at most. -/
def Order.depth : Order → Nat
  | .leaf _ => 0
  | .add a b => max a.depth b.depth + 1

/-- `jnp.sum(hist)` (component.py 163) in this order. -/
noncomputable def Order.sum : Order → F32
  | .leaf h => h
  | .add a b => a.sum + b.sum

/-- `1 / jnp.sum(hist) * parameters[self.rate_name]` (component.py 163). -/
noncomputable def factorOnPdf (o : Order) (rate : ℝ) : F32 := ⟨rnd (rnd (1 / o.sum.val) * rnd rate)⟩

/-- `1 / batch_size * parameters[self.rate_name]` (component.py 173), a Python number. -/
noncomputable def factorOnSim (batch : Nat) (rate : ℝ) : F32 := ⟨rnd (1 / batch * rate)⟩

/-- `hist *= normalization_factor` (component.py 461-462). -/
noncomputable def scale32 (f : F32) (h : F32) : F32 := ⟨rnd (h.val * f.val)⟩

end Verif.Single
