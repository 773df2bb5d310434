/-
The binned log likelihood in single precision: `_simulate_model_hist` and `get_log_likelihood` (likelihood.py 294-314, 340-376) on
single-precision templates and data, with the rounding of `Model/Single.lean`.

External behaviour modelled here: the data histogram and the templates are single-precision arrays, so numpy and jax compute the
logarithm, the product, the difference and the sum in single precision; each result is rounded.  The logarithm of the library is an
argument.  The sum is taken pairwise in some order.  NaN, overflow and underflow are not modelled.
-/
import Verif.Model.SingleNorm

namespace Verif.Single
open Verif

/-- `hist += _hist` over the components, from zero (likelihood.py 304-313), for one bin. -/
noncomputable def modelBin (templates : List F32) : F32 := templates.foldl (· + ·) 0

/-- A bin: the number of events in the data and the content of the model. -/
structure Cell where
  data : F32
  model : F32

/-- The bins in the order in which their terms are added (likelihood.py 372). -/
inductive Cells
  | leaf (c : Cell)
  | add (a b : Cells)

/-- All bins. -/
def Cells.list : Cells → List Cell
  | .leaf c => [c]
  | .add a b => a.list ++ b.list

/-- How many sums a term goes through at most. -/
def Cells.depth : Cells → Nat
  | .leaf _ => 0
  | .add a b => max a.depth b.depth + 1

/-- `self.data_hist * np.log(model_hist) - model_hist` (likelihood.py 372) for one bin. -/
noncomputable def term32 (log32 : ℝ → ℝ) (c : Cell) : F32 := ⟨rnd (rnd (c.data.val * log32 c.model.val) - c.model.val)⟩

/-- `np.sum` of the terms (likelihood.py 372). -/
noncomputable def sum32 (log32 : ℝ → ℝ) : Cells → F32
  | .leaf c => term32 log32 c
  | .add a b => sum32 log32 a + sum32 log32 b

open Classical in
/-- `get_log_likelihood` (likelihood.py 341-376) for the given bins; `none` is minus infinity (355-361). -/
noncomputable def llh32 (log32 : ℝ → ℝ) (cs : Cells) : Option ℝ :=
  if ∃ c ∈ cs.list, c.model.val ≤ 0 then none else some (sum32 log32 cs).val

end Verif.Single
