/-
Model of the sampler that `pre_fitting` (`appletree/context.py` 217-235) sets up and `fitting` (237-271) runs.

Simplifications.  The sampler is `emcee.EnsembleSampler`, a library outside the repository: what is modelled of it is how it uses
`log_posterior` of the context, with its default move, the stretch move.  emcee moves one half of the walkers at a time, each
with a partner in the other half; as the partners do not move meanwhile, the walkers are moved one after the other here.  Random
numbers are arguments, also the keys that `log_posterior` draws (context.py 182).  The keys of the evaluation that a stored value
comes from are kept beside it; nothing reads them.  Parameters are exact numbers.
-/
import Verif.Model.Context

namespace Verif.Walk
open Verif Parameter

/-- A walker: its position in `parameter_fit` order, the log posterior stored for it, and the keys this was evaluated with. -/
structure Walker (d : Nat) (K : Type) where
  pos : Fin d → ℝ
  keys : Nat → K
  logp : XF

/-- The arguments of the fit: `batch_size` and `repeat_times` (context.py 237-239), the scale of the stretch move, and how the
parameter manager evaluates priors (C04). -/
structure Settings where
  sig : Solver
  order : List String
  batch : Int
  repeats : Int
  scale : ℝ

section
variable {K : Type} {d n : Nat}

/-- The log posterior at a position (context.py 164-199, called with the dictionary of `parameter_names`, 226-235).  emcee
refuses NaN. -/
noncomputable def evaluate (o : Settings) (c : Ctx.Ctx K) (x : Fin d → ℝ) (keys : Nat → K) : Ctx.Ctx K × Res XF :=
  match Ctx.logPosterior o.sig o.order keys c (.dict ((parameterFit c.pm).zip ((List.ofFn x).map XF.fin))) o.batch o.repeats with
  | (c', .error e) => (c', .error e)
  | (c', .ok (v, _)) => if v.isNaN then (c', .error .valueError) else (c', .ok v)

/-- `((a - 1.0) * rand + 1) ** 2.0 / a` (the move of context.py 233). -/
noncomputable def stretch (a w : ℝ) : ℝ := ((a - 1) * w + 1) ^ 2 / a

/-- `c - (c - s) * zz` (the move of context.py 233). -/
noncomputable def propose (z : ℝ) (partner x : Fin d → ℝ) : Fin d → ℝ := fun i => partner i - (partner i - x i) * z

/-- `(ndim - 1.0) * log(zz)`, `ndim` being `_ndim` (context.py 201-203, 228). -/
noncomputable def factor (d : Nat) (z : ℝ) : XF := XF.fin ((d : ℝ) - 1) * XF.log (.fin z)

/-- `f + new - old > log(rand)` (the move of context.py 233). -/
def accepts (f new old : XF) (u : ℝ) : Prop := XF.log (.fin u) < f + new - old

open Classical in
/-- One walker is moved with a partner (a step of `run_mcmc`, context.py 263-268); the numbers `w` and `u` are drawn for the
stretch and for the acceptance. -/
noncomputable def move (o : Settings) (i j : Fin n) (w : ℝ) (keys : Nat → K) (u : ℝ)
    (s : Ctx.Ctx K × (Fin n → Walker d K)) : (Ctx.Ctx K × (Fin n → Walker d K)) × Res Unit :=
  let z := stretch o.scale w
  let y := propose z (s.2 j).pos (s.2 i).pos
  match evaluate o s.1 y keys with
  | (c', .error e) => ((c', s.2), .error e)
  | (c', .ok v) =>
    ((c', if accepts (factor d z) v (s.2 i).logp u then Function.update s.2 i ⟨y, keys, v⟩ else s.2), .ok ())

end
end Verif.Walk
