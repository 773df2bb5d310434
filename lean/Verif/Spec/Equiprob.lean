/-
Specification vocabulary for equiprobable bins: which bin between given edges, possibly infinite, a value lies in.
-/
import Verif.Model.Equiprob
import Verif.Model.Likelihood

namespace Verif.Equiprob
open Verif

section
variable {F : Type} [LinearOrder F]

/-- The value lies between edge `j` and the next, the lower one excluded and the upper one included; NaN lies nowhere. -/
def Between (e : List (Ext F)) (j : Nat) (v : Option F) : Prop :=
  ∃ lo hi x, e[j]? = some lo ∧ e[j + 1]? = some hi ∧ v = some x ∧ lo < fin x ∧ fin x ≤ hi

/-- The value is a number strictly inside the clip. -/
def Inside (c : Ext F × Ext F) (v : Option F) : Prop := ∃ x, v = some x ∧ c.1 < fin x ∧ fin x < c.2

/-- Edges from minus to plus infinity. -/
def unbounded (inner : List F) : List (Ext F) := ⊥ :: inner.map fin ++ [⊤]

open Classical in
/-- The number of values between edge `j` and the next. -/
noncomputable def countBetween (e : List (Ext F)) (data : List (Option F)) (j : Nat) : Nat :=
  data.countP (fun v => decide (Between e j v))

open Classical in
/-- The number of events in x-bin `i` and, among its y-bins, in `j`. -/
noncomputable def countBetween2 (e : List (Ext F) × List (List (Ext F))) (data : List (Option F × Option F)) (i j : Nat) : Nat :=
  data.countP (fun v => decide (Between e.1 i v.1 ∧ ∃ r, e.2[i]? = some r ∧ Between r j v.2))

/-- The first column of the data. -/
def column [Field F] (rows : List (List (Option F))) : List (Option F) := rows.map (fun r => Llh.entry r 0)

/-- The first two columns of the data. -/
def columns [Field F] (rows : List (List (Option F))) : List (Option F × Option F) :=
  rows.map (fun r => (Llh.entry r 0, Llh.entry r 1))

end
end Verif.Equiprob
