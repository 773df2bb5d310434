/-
Specification vocabulary for maps: piecewise linear interpolation through a table and averages with positive weights.
-/
import Mathlib.Algebra.Order.Field.Basic

namespace Verif.Interp

variable {F : Type} [Field F] [LinearOrder F]

/-- `y` is the value at `x` of the piecewise linear function through the points, constant outside. -/
def IsLinearInterp (pts : List (F × F)) (x y : F) : Prop :=
  (∃ p, pts.head? = some p ∧ x ≤ p.1 ∧ y = p.2) ∨
  (∃ p, pts.getLast? = some p ∧ p.1 ≤ x ∧ y = p.2) ∨
  (∃ (k : Nat) (p q : F × F), pts[k]? = some p ∧ pts[k + 1]? = some q ∧ p.1 ≤ x ∧ x ≤ q.1 ∧
    y = p.2 + (q.2 - p.2) * ((x - p.1) / (q.1 - p.1)))

/-- `y` is an average of the values with positive weights summing to one. -/
def IsAverage (vals : List F) (y : F) : Prop :=
  ∃ ws : List F, ws.length = vals.length ∧ (∀ w ∈ ws, 0 < w) ∧ ws.sum = 1 ∧
    y = ((vals.zip ws).map (fun p => p.1 * p.2)).sum

/-- `y` is the average of the values (first components) with weights inversely proportional to the distances (second
components). -/
def IsInverseDistance (vd : List (F × F)) (y : F) : Prop :=
  ∃ c, 0 < c ∧ (vd.map (fun p => c / p.2)).sum = 1 ∧ y = (vd.map (fun p => p.1 * (c / p.2))).sum

/-- The squared euclidean distance. -/
def sqDist (p q : List F) : F := ((p.zip q).map (fun e => (e.1 - e.2) ^ 2)).sum

end Verif.Interp
