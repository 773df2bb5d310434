/-
Specification vocabulary for what a fit samples: the posterior density for given parameters and keys, its average over the keys,
and the expectation of a quantity after some moves of the sampler.
-/
import Verif.Model.Walk
import Verif.Lemmas.RandgenLaw

namespace Verif.Walk
open Verif Parameter MeasureTheory
open scoped ENNReal

section
variable {K : Type} {d n : Nat}

/-- What `log_posterior` of a context returns at a position. -/
noncomputable def posterior (o : Settings) (c : Ctx.Ctx K) (x : Fin d → ℝ) (keys : Nat → K) : Res (XF × XF) :=
  (Ctx.logPosterior o.sig o.order keys c (.dict ((parameterFit c.pm).zip ((List.ofFn x).map XF.fin))) o.batch o.repeats).2

/-- The density that a returned log posterior stands for: its exponential, and zero for minus infinity. -/
noncomputable def densityOf : XF → ℝ≥0∞
  | .fin v => ENNReal.ofReal (Real.exp v)
  | _ => 0

/-- The value returned, if one is. -/
def valueOf : Res (XF × XF) → XF
  | .ok (v, _) => v
  | .error _ => .nan

/-- The posterior density at a position, for given keys. -/
noncomputable def density (o : Settings) (c : Ctx.Ctx K) (q : (Fin d → ℝ) × (Nat → K)) : ℝ≥0∞ := densityOf (valueOf (posterior o c q.1 q.2))

/-- Walkers whose stored values are those of the context at their positions, for the keys given with them. -/
noncomputable def walkersAt (o : Settings) (c : Ctx.Ctx K) (s : Fin n → (Fin d → ℝ) × (Nat → K)) : Fin n → Walker d K :=
  fun i => ⟨(s i).1, (s i).2, valueOf (posterior o c (s i).1 (s i).2)⟩

/-- The order in which walkers are moved, with the possible partners of each. -/
abbrev Schedule (n : Nat) := List (Fin n × List (Fin n))

/-- Every walker has possible partners, all of them different from it. -/
def Schedule.Proper (sched : Schedule n) : Prop := ∀ a ∈ sched, a.2 ≠ [] ∧ a.1 ∉ a.2

/-- One iteration of the sampler: one half of the walkers moves with partners in the other half, then the other way round. -/
def halves (l r : List (Fin n)) : Schedule n := l.map (fun i => (i, r)) ++ r.map (fun i => (i, l))

/-- The expectation of `F` after the moves of a schedule, if the partner is taken uniformly, the two numbers of each move are
uniform in `[0, 1)`, and the keys follow `μ`.  A run that fails contributes nothing. -/
noncomputable def expectAfter [MeasurableSpace K] (o : Settings) (μ : Measure (Nat → K)) (F : (Fin n → Walker d K) → ℝ≥0∞) :
    Schedule n → Ctx.Ctx K × (Fin n → Walker d K) → ℝ≥0∞
  | [], s => F s.2
  | (i, js) :: rest, s =>
    (js.map (fun j => ∫⁻ w, ∫⁻ keys, ∫⁻ u, (match move o i j w keys u s with
      | (s', .ok ()) => expectAfter o μ F rest s'
      | (_, .error _) => 0) ∂Randgen.unif ∂μ ∂Randgen.unif)).sum / js.length

end
end Verif.Walk
