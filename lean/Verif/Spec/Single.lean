/- Specification vocabulary of C91. -/
import Mathlib.Data.List.Count
import Mathlib.Data.Real.Basic
import Mathlib.Algebra.BigOperators.Group.List.Basic

namespace Verif.Single

/-- The number of events with a property. -/
noncomputable def count {S : Type*} (p : S → Prop) (events : List S) : ℕ :=
  open Classical in events.countP (fun s => decide (p s))

/-- The exact total weight of the events with a property. -/
noncomputable def total {S : Type*} (p : S → Prop) (events : List (S × ℝ)) : ℝ :=
  open Classical in ((events.filter (fun e => decide (p e.1))).map Prod.snd).sum

end Verif.Single
