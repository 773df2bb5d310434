/-
Model of the equiprobable binnings of appletree/utils.py (277-355).

Simplified: GOFevaluation.get_equiprobable_binning is a parameter; its options `integer`, `left` and `order` are part of it.
Values are elements of an ordered type or NaN (`none`); edges and clips may be infinite.
-/
import Verif.Model.Interp
import Mathlib.Order.WithBot

namespace Verif.Equiprob
open Verif

section
variable {F : Type} [LinearOrder F]

/-- Numbers with both infinities. -/
abbrev Ext (F : Type) := WithBot (WithTop F)

/-- A finite number. -/
def fin (v : F) : Ext F := ((v : WithTop F) : WithBot (WithTop F))

/-- `(data > clip[0]) & (data < clip[1])` for one value (utils.py 299-300, 337-340). -/
def inClip (c : Ext F × Ext F) : Option F → Bool
  | none => false
  | some v => decide (c.1 < fin v) && decide (fin v < c.2)

/-- The default clip (utils.py 281, 319-320). -/
def noClip : Ext F × Ext F := (⊥, ⊤)

/-- `get_equiprob_bins_1d` (utils.py 278-311). -/
def bins1 (lib : List (Option F) → Nat → List (Ext F)) (data : List (Option F)) (n : Nat) (c : Ext F × Ext F := noClip) :
    List (Ext F) :=
  (lib (data.filter (inClip c)) n).map (fun e => Interp.clip e c.1 c.2)

/-- `get_equiprob_bins_2d` (utils.py 315-355). -/
def bins2 (lib : List (Option F × Option F) → Nat × Nat → List (Ext F) × List (List (Ext F)))
    (data : List (Option F × Option F)) (n : Nat × Nat) (cx : Ext F × Ext F := noClip) (cy : Ext F × Ext F := noClip) :
    List (Ext F) × List (List (Ext F)) :=
  let r := lib (data.filter (fun v => inClip cx v.1 && inClip cy v.2)) n
  (r.1.map (fun e => Interp.clip e cx.1 cx.2), r.2.map (fun row => row.map (fun e => Interp.clip e cy.1 cy.2)))

end
end Verif.Equiprob
