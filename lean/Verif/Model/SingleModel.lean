/-
From the contents of the templates to the log likelihood in single precision: `simulate_hist` (component.py 454-463, 617-626), the sum
over the components (likelihood.py 294-314) and `get_log_likelihood` (likelihood.py 341-376), put together from `Model/SingleNorm.lean`
and `Model/SingleLlh.lean`.  Bins are those of any finite list; neither overflow nor underflow is modelled.
-/
import Verif.Model.SingleLlh

namespace Verif.Single
open Verif

/-- How a component is normalised (component.py 160-176): on the sum of its template, which is added up in some order, or on the
number of simulated events. -/
inductive Norm32
  | onPdf (o : Order)
  | onSim (batch : Nat)

/-- A component in a fit: its normalisation, its rate and its contents before normalisation, bin by bin (component.py 454-463). -/
structure Template32 (β : Type) where
  norm : Norm32
  rate : ℝ
  content : β → F32

/-- `get_normalization` (component.py 160-176). -/
noncomputable def Template32.factor {β : Type} (t : Template32 β) : F32 :=
  match t.norm with
  | .onPdf o => factorOnPdf o t.rate
  | .onSim batch => factorOnSim batch t.rate

/-- `hist *= normalization_factor` (component.py 461-462, 624-625), one bin. -/
noncomputable def Template32.bin {β : Type} (t : Template32 β) (b : β) : F32 := scale32 t.factor (t.content b)

/-- The bin of data and model that enters the log likelihood (likelihood.py 304-313, 372). -/
noncomputable def cellOf {β : Type} (data : β → F32) (comps : List (Template32 β)) (b : β) : Cell :=
  ⟨data b, modelBin (comps.map (fun t => t.bin b))⟩

end Verif.Single
