/-
Vocabulary for C133: how far two predictions are apart.
-/
import Verif.Spec.Flow

namespace Verif.Llh
open Verif Comp

/-- How far two predictions are apart: the squared distances of the square roots of the contents, added over the bins. -/
noncomputable def distance (bins : Bins ℝ) (l m : Nat × Nat → ℝ) : ℝ := ((binList bins).map (fun c => (√(l c) - √(m c)) ^ 2)).sum

end Verif.Llh
