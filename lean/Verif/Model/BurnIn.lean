/-
Model of the burn-in plot: `appletree/plot.py` 112-172.  Drawing itself is not modelled: a panel is its lines, one per walker, and
its limits.
-/
import Verif.Model.Plot

namespace Verif.Plot
open Verif

/-- The line of a walker (plot.py 132-137, 143-148, 155-160): abscissas `np.arange(n) * thin + discard` and the values of the
walker in the rows that are left. -/
def burnLine {α : Type} (discard thin : Nat) (rows : List (List α)) (walker : Nat) : List (Nat × Option α) :=
  rows.mapIdx (fun k row => (k * thin + discard, row[walker]?))

/-- `ax.set_xlim` of every panel (plot.py 139, 150, 162). -/
def burnLimits {P B : Type} (discard thin : Nat) (r : Chains P B) : Nat × Nat := (discard, r.chain.length * thin + discard)

/-- `max()` of an array of finite values (ValueError if it is empty). -/
noncomputable def maxOf (l : List ℝ) : Res ℝ :=
  match argmax l with
  | none => .error .valueError
  | some i => .ok (l.getD i 0)

/-- The lines of the plot and the limits of the ordinate in the panels of the posterior and the prior. -/
structure BurnIn (P B : Type) where
  chain : List (List (Nat × Option P))
  posterior : List (List (Nat × Option XF))
  prior : List (List (Nat × Option B))
  xlim : Nat × Nat
  posteriorLim : ℝ × ℝ
  priorLim : ℝ × ℝ

/-- `plot_burn_in` (plot.py 112-172) for walkers `0 .. walkers - 1`; the panels of the parameters show the entries of the vectors
in `chain`.  `value` is the log prior stored as a blob. -/
noncomputable def plotBurnIn {P B : Type} (discard thin walkers : Nat) (value : B → ℝ) (r : Chains P B) : Res (BurnIn P B) := do
  let m ← maxOf (r.posterior.flatten.map finVal)
  let m' ← maxOf (r.prior.flatten.map value)
  return ⟨(List.range walkers).map (burnLine discard thin r.chain), (List.range walkers).map (burnLine discard thin r.posterior),
    (List.range walkers).map (burnLine discard thin r.prior), burnLimits discard thin r, (m - 100, m), (m' - 100, m')⟩

end Verif.Plot
