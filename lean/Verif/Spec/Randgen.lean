/-
Vocabulary for the properties of the random samplers: programs built from them, agreement of two sources of randomness on a
key, the generations of a branching process, and ideal draws.
-/
import Mathlib.MeasureTheory.Constructions.Pi
import Mathlib.MeasureTheory.Measure.Lebesgue.Basic
import Mathlib.MeasureTheory.Integral.IntervalIntegral.Basic
import Mathlib.Probability.Distributions.Gaussian.Real
import Mathlib.Probability.Distributions.Gamma
import Mathlib.Probability.Independence.Basic
import Verif.Model.Randgen

namespace Verif.Randgen
open Verif MeasureTheory

/-- One call of a sampler with its arguments. -/
inductive Call (m : Nat)
  | uniform (vmin vmax : Fin m → ℝ)
  | poisson (lam : Fin m → ℝ)
  | gamma (alpha beta : Fin m → ℝ)
  | normal (mean std : Fin m → ℝ)
  | truncateNormal (mean std : Fin m → ℝ) (vmin vmax : Option (Fin m → ℝ))
  | skewnormal (a loc scale : Fin m → ℝ)
  | bernoulli (p : Fin m → ℝ)
  | binomialHybrid (rnd : ℝ → ℤ) (threshold : Nat) (p : Fin m → ℝ) (n : Fin m → ℤ)
  | binomialJax (p : Fin m → ℝ) (n : Fin m → ℤ)
  | binomialFallback (rnd : ℝ → ℤ) (always : Bool) (p : Fin m → ℝ) (n : Fin m → ℤ)
  | negativeBinomial (p n : Fin m → ℝ)
  | generalizedPoisson (fuel : Nat) (lam eta : Fin m → ℝ)
  | twohalfnorm (mu sp sn : Fin m → ℝ)

/-- The values a call gave, as real numbers; none while a loop has not finished. -/
abbrev Out (m : Nat) := Option (Fin m → ℝ)

/-- Natural numbers as an outcome. -/
def ofNat {m : Nat} (r : (Fin m → Nat) × St) : Out m × St := (some (fun i => (r.1 i : ℝ)), r.2)

/-- Integers as an outcome. -/
def ofInt {m : Nat} (r : (Fin m → ℤ) × St) : Out m × St := (some (fun i => (r.1 i : ℝ)), r.2)

/-- Real numbers as an outcome. -/
def ofReal {m : Nat} (r : (Fin m → ℝ) × St) : Out m × St := (some r.1, r.2)

/-- Making a call. -/
noncomputable def Call.run {m : Nat} (r : Rng m) : Call m → Samp (Out m)
  | .uniform a b, s => ofReal (Randgen.uniform r a b s)
  | .poisson l, s => ofNat (Randgen.poisson r l s)
  | .gamma a b, s => ofReal (Randgen.gamma r a b s)
  | .normal a b, s => ofReal (Randgen.normal r a b s)
  | .truncateNormal a b c d, s => ofReal (Randgen.truncateNormal r a b c d s)
  | .skewnormal a b c, s => ofReal (Randgen.skewnormal r a b c s)
  | .bernoulli p, s => ofNat (Randgen.bernoulli r p s)
  | .binomialHybrid rnd t p n, s => ofInt (Randgen.binomialHybrid rnd t r p n s)
  | .binomialJax p n, s => ofInt (Randgen.binomialJax r p n s)
  | .binomialFallback rnd a p n, s => ofInt (Randgen.binomialFallback rnd a r p n s)
  | .negativeBinomial p n, s => ofNat (Randgen.negativeBinomial r p n s)
  | .generalizedPoisson f l e, s =>
    ((Randgen.generalizedPoisson f r l e s).1.map (fun v i => (v i : ℝ)), (Randgen.generalizedPoisson f r l e s).2)
  | .twohalfnorm a b c, s => ofReal (Randgen.twohalfnorm r a b c s)

/-- Whether a call is one of `twohalfnorm`. -/
def Call.isTwoHalfNorm {m : Nat} : Call m → Bool
  | .twohalfnorm _ _ _ => true
  | _ => false

/-- A program that threads one key through sampler calls; what it does next may depend on the values drawn. -/
inductive Prog
  | done
  | call {m : Nat} (c : Call m) (next : Out m → Prog)

/-- Running a program from a state. -/
noncomputable def Prog.run (r : ∀ m, Rng m) : Prog → St → St
  | .done, s => s
  | .call c next, s => (next (c.run (r _) s).1).run r (c.run (r _) s).2

/-- The program never calls `twohalfnorm`. -/
inductive Prog.Avoids : Prog → Prop
  | done : Avoids .done
  | call {m : Nat} (c : Call m) (next : Out m → Prog) (h : c.isTwoHalfNorm = false) (hn : ∀ o, Avoids (next o)) :
      Avoids (.call c next)

/-- Two sources of randomness draw the same for the key `k`. -/
structure Agree {m : Nat} (r r' : Rng m) (k : Key) : Prop where
  normal : r.normal k = r'.normal k
  uniform : r.uniform k = r'.uniform k
  trials : r.trials k = r'.trials k
  poisson : r.poisson k = r'.poisson k
  gamma : r.gamma k = r'.gamma k
  bernoulli : r.bernoulli k = r'.bernoulli k
  binomial : r.binomial k = r'.binomial k
  normal1 : r.normal1 k = r'.normal1 k
  numpyro : r.numpyro k = r'.numpyro k

/-- The generations of the branching process of a generalized Poisson draw, when generation `j` is drawn from key `ks j`. -/
noncomputable def generation {m : Nat} (r : Rng m) (lam eta : Fin m → ℝ) (ks : Nat → Key) : Nat → Fin m → Nat
  | 0 => r.poisson (ks 0) (fun i => lam i * (1 - eta i))
  | j + 1 => r.poisson (ks (j + 1)) (fun i => eta i * (generation r lam eta ks j i : ℝ))

/-- Ideal Poisson draws: independent between keys, Poisson distributed for every element and every expectation, and zero for the
expectation zero. -/
structure IdealPoisson {m : Nat} {Ω : Type} [MeasurableSpace Ω] (P : Measure Ω) (r : Ω → Rng m) : Prop where
  meas : ∀ k lam i, Measurable (fun ω => (r ω).poisson k lam i)
  indep : ProbabilityTheory.iIndepFun (fun (k : Key) ω => (r ω).poisson k) P
  law : ∀ k lam i n, 0 ≤ lam i →
    P {ω | (r ω).poisson k lam i = n} = ENNReal.ofReal (Real.exp (-lam i) * lam i ^ n / n.factorial)
  zero : ∀ ω k lam i, lam i = 0 → (r ω).poisson k lam i = 0

/-- Ideal gamma and Poisson draws: every key has its own randomness `sig k`, independent of that of the other keys; gamma draws have
the gamma law of their shape, Poisson draws are Poisson distributed for every expectation. -/
structure IdealDraws {m : Nat} {Ω : Type} [mΩ : MeasurableSpace Ω] (P : Measure Ω) (r : Ω → Rng m)
    (sig : Key → MeasurableSpace Ω) : Prop where
  le : ∀ k, sig k ≤ mΩ
  indep : ProbabilityTheory.iIndep sig P
  gamma_meas : ∀ k a, Measurable[sig k] (fun ω => (r ω).gamma k a)
  poisson_meas : ∀ k, Measurable[(inferInstance : MeasurableSpace (Fin m → ℝ)).prod (sig k)]
    (fun x : (Fin m → ℝ) × Ω => (r x.2).poisson k x.1)
  gamma_law : ∀ k a i, 0 < a i → P.map (fun ω => (r ω).gamma k a i) = ProbabilityTheory.gammaMeasure (a i) 1
  poisson_law : ∀ k lam i n, 0 ≤ lam i →
    P {ω | (r ω).poisson k lam i = n} = ENNReal.ofReal (Real.exp (-lam i) * lam i ^ n / n.factorial)

/-- The generalized Poisson distribution with location `theta` and scale `eta`. -/
noncomputable def gpPmf (theta eta : ℝ) : Nat → ℝ
  | 0 => Real.exp (-theta)
  | n + 1 => theta * (theta + (n + 1) * eta) ^ n * Real.exp (-theta - (n + 1) * eta) / (n + 1).factorial

/-- Independent uniform draws on [0,1), one per trial. -/
noncomputable def trialsLaw (t : Nat) : Measure (Fin t → ℝ) := Measure.pi (fun _ => volume.restrict (Set.Ico (0 : ℝ) 1))

/-- The draws of finitely many trials as a sequence. -/
noncomputable def padded {t : Nat} (u : Fin t → ℝ) : Nat → ℝ := fun j => if h : j < t then u ⟨j, h⟩ else 0

/-- The error function. -/
noncomputable def erf (x : ℝ) : ℝ := 2 / √Real.pi * ∫ t in (0 : ℝ)..x, Real.exp (-t ^ 2)

/-- The probability that the square of a standard normal number is at most one, `chi2.cdf(1, 1)`. -/
noncomputable def oneSigma : ℝ := (ProbabilityTheory.gaussianReal 0 1).real (Set.Icc (-1) 1)

/-- A density given by its logarithm, as a law. -/
noncomputable def lawOf (l : ℝ → ℝ) : Measure ℝ := volume.withDensity (fun x => ENNReal.ofReal (Real.exp (l x)))

end Verif.Randgen
