/-
Specification vocabulary for weighted data: which events are kept, and bins that leave no gap.
-/
import Verif.Spec.Whole

namespace Verif.Llh
open Verif

variable {F : Type} [Field F] [LinearOrder F]

/-- Entry `k` of the row lies strictly between two of the edges. -/
def BetweenEdges (e : List F) (row : List (Option F)) (k : Nat) : Prop :=
  ∃ lo ∈ e, ∃ hi ∈ e, ∃ v, row[k]? = some (some v) ∧ lo < v ∧ v < hi

/-- The event lies strictly inside the outermost edges of every axis; in two dimensions with one list of y edges for each x-bin,
inside the outermost ones of all these lists. -/
def StrictlyInside : Comp.Bins F → List (Option F) → Prop
  | .mesh1 e, row => BetweenEdges e row 0
  | .irreg1 e, row => BetweenEdges e row 0
  | .mesh2 x y, row => BetweenEdges x row 0 ∧ BetweenEdges y row 1
  | .irreg2 x y, row => BetweenEdges x row 0 ∧ BetweenEdges y.flatten row 1
  | _, _ => False

/-- The event lies in one of the bins. -/
def InSomeBin (bins : Comp.Bins F) (row : List (Option F)) : Prop := ∃ i j, IsBin bins i j ∧ EventIn bins i j row

/-- The bins fill a rectangle: all lists of y edges have the same ends. -/
def Rectangular : Comp.Bins F → Prop
  | .irreg2 _ y => ∃ c, ∀ row ∈ y, Spans row c
  | _ => True

end Verif.Llh
