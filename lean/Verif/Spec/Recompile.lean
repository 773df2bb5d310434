/-
Specification vocabulary for repeated simulation with new compilation.
-/
import Verif.Model.Recompile

namespace Verif.Recompile
open Verif

/-- The part of column `i` of a batch that is kept: all of it, or the events of positive efficiency. -/
def Kept {F : Type} [Field F] [LinearOrder F] (apply : Bool) (batch : List (List F)) (i : Nat) (part : List F) : Prop :=
  ∃ raw, batch[i]? = some raw ∧ (apply = false → part = raw) ∧
    (apply = true → ∃ eff, batch.getLast? = some eff ∧
      (raw.length = eff.length → part = ((raw.zip eff).filter (fun p => decide (0 < p.2))).map Prod.fst))

/-- The settings of a run: which file, how many events and which seed. -/
def settings (file : Cell) (batch seed : Int) : Entry := .list [file, .int batch, .int seed]

end Verif.Recompile
