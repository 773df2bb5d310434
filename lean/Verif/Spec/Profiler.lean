/-
Specification of repeated calls: a plugin called `n` times on the same inputs, each time with the key left by the
call before, whose outputs are those of the last call.
-/
import Verif.Model.Registry

namespace Verif.Comp

/-- `CalledTimes sem p args n k k' outs`: `n` calls starting from `k` end with key `k'` and outputs `outs`. -/
inductive CalledTimes {K V : Type} (sem : Plugin → K → List V → Verif.Res (K × List V)) (p : Plugin)
    (args : List V) : Nat → K → K → List V → Prop
  | once {k k' outs} : sem p k args = .ok (k', outs) → CalledTimes sem p args 1 k k' outs
  | more {n k k1 k' o outs} : sem p k args = .ok (k1, o) → CalledTimes sem p args n k1 k' outs →
      CalledTimes sem p args (n + 1) k k' outs

/-- A data flow in which each plugin is called `n` times. -/
inductive EvaluatesTimes {K V : Type} (sem : Plugin → K → List V → Verif.Res (K × List V)) (n : Nat)
    (needed : String → Prop) (val : String → V) : List Plugin → K → K → Prop
  | nil {k} : EvaluatesTimes sem n needed val [] k k
  | cons {p ps k k' k'' outs} :
      CalledTimes sem p (p.dependsOn.map val) n k k' outs →
      (∀ (i : Nat) (d : String), p.provides[i]? = some d → needed d → outs[i]? = some (val d)) →
      EvaluatesTimes sem n needed val ps k' k'' →
      EvaluatesTimes sem n needed val (p :: ps) k k''

open Verif in
/-- The successful profiles, in order: likelihood name, component name and result. -/
def profiled {R : Type} (llhs : List (String × List (String × Option (Res R)))) : List ((String × String) × R) :=
  llhs.flatMap (fun l => l.2.filterMap (fun c => match c.2 with
    | some (.ok r) => some ((l.1, c.1), r)
    | _ => none))

end Verif.Comp
