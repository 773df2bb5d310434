/-
Words for C152: the events of a data file.
-/
import Verif.Spec.Likelihood

namespace Verif.Llh
open Verif

/-- The equiprobable edges found for a set of events do not depend on the order in which the events are listed. -/
structure Equi.Symmetric {F : Type} (eq : Equi F) : Prop where
  one : ∀ rows rows' n, rows.Perm rows' → eq.inner1 rows n = eq.inner1 rows' n
  two : ∀ rows rows' n m, rows.Perm rows' → eq.inner2 rows n m = eq.inner2 rows' n m

/-- The number of observables a likelihood is binned on. -/
def BinsOn.count : BinsOn → Nat
  | .str _ => 1
  | .list l => l.length
  | .other => 0

/-- An event the configuration cuts away: an observable is NaN, or on a bound of its clip or beyond. -/
def CutAway {F : Type} [LinearOrder F] (cfg : Config F) (r : List (Option F)) : Prop :=
  (cfg.binsOn.count = 1 → ∀ c, cfg.clip = some c → ¬ StrictlyBetween c r 0) ∧
  (cfg.binsOn.count ≠ 1 → ∀ x y, cfg.xClip = some x → cfg.yClip = some y → ¬ (StrictlyBetween x r 0 ∧ StrictlyBetween y r 1))

end Verif.Llh
