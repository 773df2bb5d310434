/-
Specification vocabulary for profiling a context: its simulated components in order, and calls that can be repeated.
-/
import Verif.Model.ProfileTime

namespace Verif.Prof
open Verif Verif.Comp

variable {K V : Type}

/-- The durations in milliseconds a loop of `n` runs measures when `r` readings were taken before it. -/
noncomputable def durations (clock : Nat → ℝ) (r n : Nat) : List ℝ :=
  (List.range n).map (fun i => (clock (r + 2 * i + 1) - clock (r + 2 * i)) * 1000)

/-- A simulated component with the name it is reported under and the parameters it sees. -/
structure SimEntry (K V W : Type) where
  name : String
  params : PyDict String W
  reg : Registry
  worksheet : Option (List Work)
  sem : PyDict String W → Plugin → K → List V → Res (K × List V)
  simulate : Option (PyDict String W → K → V → Res (K × List V))

/-- The simulated components of one likelihood, in order. -/
def simsOf {W : Type} (p : PyDict String W) (l : String × PLlh K V W) : List (SimEntry K V W) :=
  l.2.comps.filterMap (fun c => match c.2 with
    | .other => none
    | .sim reg ws sem f => some ⟨l.1 ++ "/" ++ c.1, Llh.replaceAlias l.2.aliases p, reg, ws, sem, f⟩)

/-- The simulated components of all likelihoods, in order. -/
def sims {W : Type} (p : PyDict String W) (llhs : List (String × PLlh K V W)) : List (SimEntry K V W) := llhs.flatMap (simsOf p)

/-- `f` can be called `n` times, each time with the key left by the call before. -/
inductive CanRun {O : Type} (f : K → Res (K × O)) : Nat → K → Prop
  | zero {k} : CanRun f 0 k
  | succ {n k k' o} : f k = .ok (k', o) → CanRun f n k' → CanRun f (n + 1) k

end Verif.Prof
