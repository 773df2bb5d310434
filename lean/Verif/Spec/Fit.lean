/-
Words of the properties C43 and C61: what an estimate from a chain is, and what identifies a fit.
-/
import Verif.Model.Fit

namespace Verif.Fit
open Verif Parameter

section
variable {I : Type}

/-- `p` gives the fitted parameters the values of the sample, in `parameter_fit` order, and the others their current values. -/
def FromSample (pm : PM) (s : Sample) (p : PyDict String XF) : Prop :=
  (∀ (i : Nat) (n : String) (x : XF), (parameterFit pm)[i]? = some n → s.vec[i]? = some x → p.get? n = some x) ∧
  (∀ n, n ∉ parameterFit pm → p.get? n = pm.vals.get? n)

/-- `s` has the largest log posterior of these iterations. -/
def IsBest (its : List (List Sample)) (s : Sample) : Prop := s ∈ its.flatten ∧ ∀ t ∈ its.flatten, ¬ s.logp < t.logp

/-- Iterations of a fit: at least one sample, no NaN posterior (emcee raises on NaN), one entry per fitted parameter. -/
structure GoodChain (pm : PM) (its : List (List Sample)) : Prop where
  nonempty : its.flatten ≠ []
  noNaN : ∀ s ∈ its.flatten, s.logp ≠ .nan
  width : ∀ s ∈ its.flatten, s.vec.length = (parameterFit pm).length

/-- What identifies one fit for `from_backend`. -/
structure FitMeta (I : Type) where
  instruct : I
  nwalkers : Int
  batch : Int

/-- The answer of `from_backend` that describes the fit. -/
def FitMeta.answer (m : FitMeta I) : Attr I × Attr I × Attr I := (.instruct m.instruct, .int m.nwalkers, .int m.batch)

/-- One fit of a history: its metadata, steps, posterior parameters and names, and the number of writes that took place. -/
structure Run (I : Type) where
  info : FitMeta I
  steps : List (List Sample)
  post : PyDict String XF
  names : List String
  done : Nat

/-- The writes of a run that took place. -/
def Run.writes (r : Run I) : List (Write I) :=
  (fitWrites r.info.nwalkers r.steps r.post r.info.instruct r.names r.info.batch).take r.done

end
end Verif.Fit
