/-
How a continued fit starts: `continue_fitting` (context.py 273-310) up to the first step.

External behaviour modelled here (emcee): `get_chain` raises AttributeError when nothing was run; a sampler that is made on a file
starts from the last iteration in the file with the log posteriors stored there; a list of positions has no log posteriors, so they
are evaluated walker by walker; positions of another shape than (walkers, fitted parameters) are a ValueError; the columns of the
positions are given the names `parameter_names` in order.
-/
import Verif.Model.Parameter

namespace Verif.Continue
open Verif Parameter

/-- One stored iteration: the positions of the walkers and their log posteriors. -/
structure Iter where
  rows : List (List XF)
  logp : List XF

/-- Where the sampler starts. -/
structure Start where
  rows : List (List XF)
  logp : Option (List XF)

/-- `p0` (context.py 284-291) with what emcee makes of `None`; `other` is the chain of another context, `own` the stored one. -/
def startOf (own : List Iter) : Option (List Iter) → Res Start
  | none => match own.getLast? with
    | none => .error .attributeError
    | some it => .ok ⟨it.rows, some it.logp⟩
  | some ch => match ch.getLast? with
    | none => .error .attributeError
    | some it => .ok ⟨it.rows, none⟩

/-- The evaluation of the walkers one after the other (context.py 171-173 for each): the parameters of a walker are set, then
`eval` is what `log_posterior` returns for walker `i` with its random numbers. -/
noncomputable def evalLoop (eval : Nat → PM → XF) : Nat → PM → List (List XF) → PM × Res (List XF)
  | _, pm, [] => (pm, .ok [])
  | i, pm, r :: rs =>
    match setParameter pm (.dict ((parameterFit pm).zip r)) .none with
    | (pm', .error e) => (pm', .error e)
    | (pm', .ok ()) =>
      match evalLoop eval (i + 1) pm' rs with
      | (pm'', .error e) => (pm'', .error e)
      | (pm'', .ok vs) => (pm'', .ok (eval i pm' :: vs))

/-- The log posteriors the first step is compared with (context.py 293-310). -/
noncomputable def begin' (eval : Nat → PM → XF) (pm : PM) (own : List Iter) (other : Option (List Iter)) : PM × Res (List XF) :=
  match startOf own other with
  | .error e => (pm, .error e)
  | .ok s =>
    if s.rows.all (fun r => r.length == (parameterFit pm).length) then
      match s.logp with
      | some l => (pm, .ok l)
      | none => evalLoop eval 0 pm s.rows
    else (pm, .error .valueError)

end Verif.Continue
