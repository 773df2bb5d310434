/-
Vocabulary for C142: contexts of several likelihoods whose data vary.
-/
import Verif.Spec.Flow
import Mathlib.Data.Fintype.Sigma
import Mathlib.Algebra.BigOperators.Group.Finset.Sigma

namespace Verif.Llh
open Verif Comp

variable {K Ω : Type}

/-- A likelihood with given bins and components whose data vary. -/
structure Series (K Ω : Type) where
  name : String
  setup : Setup K
  parts : List Part
  bins : Bins ℝ
  data : Ω → List (List (Option ℝ))

/-- The likelihood for one of the data sets. -/
def Series.at (f : Series K Ω) (ω : Ω) : Fitted K := ⟨f.name, f.setup, f.parts, f.bins, f.data ω⟩

/-- The entries of a context for the varying data, each constructed from some configuration and file, with the components of `f` registered. -/
def Series.Made (f : Series K Ω) (e : Ω → String × Ctx.Obj K) : Prop :=
  f.setup.Proper f.bins f.parts ∧ ∃ g st g', f.setup.build f.parts (⟨[], []⟩, g) = ((st, g'), .ok ()) ∧
    ∀ ω, ∃ eq cfg load b, init eq cfg load = .ok b ∧ b.bins = f.bins ∧ b.data = f.data ω ∧ e ω = (f.name, .binned f.setup.al b.dataHist st)

/-- All bins of all likelihoods. -/
abbrev AllBins (fs : List (Series K Ω)) : Type := Σ i : Fin fs.length, {c // c ∈ (binList (fs[i]).bins).toFinset}

/-- How many events of the data are in a bin. -/
noncomputable def counts (fs : List (Series K Ω)) (ω : Ω) (p : AllBins fs) : ℕ := countIn (fs[p.1]).bins ((fs[p.1]).data ω) p.2

/-- How many events are expected in a bin. -/
noncomputable def contents (fs : List (Series K Ω)) (sss : List (List (Sample ℝ))) (p : AllBins fs) : ℝ := expectedIn (sss.getD p.1 []) p.2

/-- How far two predictions for all bins are apart. -/
noncomputable def distanceAll {fs : List (Series K Ω)} (l m : AllBins fs → ℝ) : ℝ := ∑ p, (√(l p) - √(m p)) ^ 2

/-- The Poisson log likelihood of counts in all bins. -/
noncomputable def poissonAll {fs : List (Series K Ω)} (n m : AllBins fs → ℝ) : ℝ := ∑ p, (n p * Real.log (m p) - m p)

end Verif.Llh
