/-
Specification vocabulary for the utilities: the number denoted by a decimal such as `.25`, streaming hashes, and
the extension classes of a module.
-/
import Verif.Model.Utils

namespace Verif.Utils
open Verif

/-- The value of a decimal fraction `.d1d2...dk` (`none` if the text is not of this form). -/
def decimalValue (s : String) : Option ℚ :=
  match s.toList with
  | '.' :: ds =>
    if ds ≠ [] ∧ ∀ c ∈ ds, c.isDigit = true then
      some ((ds.foldl (fun n c => 10 * n + (c.toNat - '0'.toNat)) 0 : ℕ) / (10 : ℚ) ^ ds.length)
    else none
  | _ => none

/-- The contract of `hashlib` objects: updating with two pieces is updating with their concatenation. -/
structure Streaming {B S : Type} (update : S → List B → S) : Prop where
  nil : ∀ s, update s [] = s
  append : ∀ s a b, update (update s a) b = update s (a ++ b)

/-- The classes `add_extensions` is meant to register: non-base proper subclasses found in the module. -/
def Extension (m : Module) (c : Cls) : Prop :=
  .cls c ∈ m.attrs.map Prod.snd ∧ c.isBase = false ∧ c.properSubclass = true

end Verif.Utils
