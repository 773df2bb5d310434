/-
Specification vocabulary for the mean signals: samplers with the right mean, and the signals of an event for given draws.
-/
import Verif.Spec.Plugins
import Verif.Spec.Randgen
import Verif.Lemmas.RandgenLaw
import Verif.Lemmas.GenPoisson

namespace Verif.Plugins
open Verif MeasureTheory

variable {Ω : Type} [MeasurableSpace Ω]

/-- For the probability `p` and the count `n`, the sampler has the mean of the binomial distribution. -/
def Fair (P : Measure Ω) (b : Ω → Binomial) (p : ℝ) (n : ℤ) : Prop :=
  Integrable (fun ω => ((b ω (.fin p) n : ℤ) : ℝ)) P ∧ ∫ ω, ((b ω (.fin p) n : ℤ) : ℝ) ∂P = p * n

/-- For the expectation `mu`, the sampler has that mean. -/
def FairPoisson (P : Measure Ω) (q : Ω → Poisson) (mu : ℝ) : Prop :=
  Integrable (fun ω => ((q ω (.fin mu) : ℤ) : ℝ)) P ∧ ∫ ω, ((q ω (.fin mu) : ℤ) : ℝ) ∂P = mu

/-- The corrected S1 of an event with `n` photons: detection, double photoelectrons, reconstruction, correction.  The smearing may depend
on the photoelectrons. -/
noncomputable def signal1 (b1 b2 : Binomial) (z g1 pDpe lce bias : ℝ) (smear : ℝ → ℝ) (correction : ℝ) (n : ℤ) : ℝ :=
  let pe : ℝ := s1PE b2 (.fin pDpe) (photonDetection b1 (.fin g1) (.fin pDpe) (.fin lce) n)
  cs1 (area bias (smear pe) z pe) correction

/-- The corrected S2 of an event with `n` electrons: drift, extraction, amplification, double photoelectrons, reconstruction, corrections. -/
noncomputable def signal2 (b0 b1 b2 : Binomial) (q : Poisson) (z survive g2 gasGain pDpe rel lce bias : ℝ) (smear : ℝ → ℝ)
    (correction : ℝ) (n : ℤ) : ℝ :=
  let pe : ℝ := (s2PE b1 b2 q (.fin g2) (.fin gasGain) (.fin pDpe) (.fin rel) (.fin lce) (electronDrifted b0 (.fin survive) n)).2.2
  cs2 (area bias (smear pe) z pe) correction survive

/-- The shipped hybrid sampler for given draws, on finite probabilities. -/
noncomputable def hybridBinomial (rnd : ℝ → ℤ) (threshold : Nat) (z : ℝ) (u : Nat → ℝ) : Binomial
  | .fin p, n => Randgen.hybrid rnd threshold p n z u
  | _, _ => 0

/-- Independent uniform numbers without end. -/
noncomputable def manyTrials : Measure (Nat → ℝ) := Measure.infinitePi (fun _ : Nat => Randgen.unif)

instance : IsProbabilityMeasure manyTrials := by unfold manyTrials; infer_instance

/-- An ideal binomial sampler: as many trials as the count asks for. -/
noncomputable def trialsBinomial (u : Nat → ℝ) : Binomial := fun p n => hybridBinomial (fun _ => 0) n.toNat 0 u p n

/-- An ideal Poisson sampler: the quantile of a uniform number. -/
noncomputable def quantilePoisson (u : ℝ) : Poisson
  | .fin x => Randgen.poisQuantile x u
  | _ => 0

end Verif.Plugins
