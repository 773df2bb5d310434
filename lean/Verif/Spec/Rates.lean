/-
Specification vocabulary for the rates of components: parameters that differ in nothing but the rates, and the events expected
in a bin as a linear combination of what the components give at unit rate.
-/
import Verif.Spec.Flow

namespace Verif.Llh
open Verif Comp

section
variable {K : Type}

/-- The name is the rate of one of the components. -/
def IsRate (parts : List Part) (k : String) : Prop := ∃ p ∈ parts, k = p.name ++ "_rate"

/-- Two sets of parameters that differ at most in the rates. -/
def SameButRates (parts : List Part) (q q' : PyDict String ℝ) : Prop := ∀ k, ¬ IsRate parts k → q.get? k = q'.get? k

/-- No plugin reads the rate of a component. -/
def RateFree (S : Setup K) (parts : List Part) : Prop := ∀ q q', SameButRates parts q q' → ∀ p, S.sem q p = S.sem q' p

/-- The rates of the components, in order of registration. -/
def ratesOf (parts : List Part) (q : PyDict String ℝ) : List ℝ :=
  parts.map (fun p => (q.get? (p.name ++ "_rate")).getD 0)

/-- Parameters a caller may give: the same as `q0` but for the rates, all of which are there. -/
structure Varies (S : Setup K) (parts : List Part) (q0 q : PyDict String ℝ) : Prop where
  same : SameButRates parts (replaceAlias S.al q0) (replaceAlias S.al q)
  rates : ∀ p ∈ parts, p.name ++ "_rate" ∈ (replaceAlias S.al q).keys

end

/-- What the component gives in a bin at unit rate. -/
noncomputable def Sample.template (s : Sample ℝ) (b : Nat × Nat) : ℝ := s.content b / s.norm

/-- The events expected in a bin at given rates. -/
noncomputable def atRates (ss : List (Sample ℝ)) (rs : List ℝ) (b : Nat × Nat) : ℝ :=
  (List.zipWith (fun r s => r * s.template b) rs ss).sum

/-- The Poisson log likelihood of the data at given rates. -/
noncomputable def logLAtRates (bins : Bins ℝ) (data : List (List (Option ℝ))) (ss : List (Sample ℝ)) (rs : List ℝ) : ℝ :=
  ((binList bins).map (fun b => countIn bins data b * Real.log (atRates ss rs b) - atRates ss rs b)).sum

/-- The mean of two lists of rates with weights `t` and `1 - t`. -/
def mixRates (t : ℝ) (rs rs' : List ℝ) : List ℝ := List.zipWith (fun r r' => t * r + (1 - t) * r') rs rs'

/-- The number of data events in all bins. -/
noncomputable def observed (bins : Bins ℝ) (data : List (List (Option ℝ))) : ℝ :=
  ((binList bins).map (fun b => (countIn bins data b : ℝ))).sum

/-- What is observed and what is expected agree for every component, each weighted with its template. -/
def Balanced (bins : Bins ℝ) (data : List (List (Option ℝ))) (ss : List (Sample ℝ)) (rs : List ℝ) : Prop :=
  ∀ s ∈ ss, ((binList bins).map (fun b => countIn bins data b / atRates ss rs b * s.template b)).sum =
    ((binList bins).map s.template).sum

end Verif.Llh
