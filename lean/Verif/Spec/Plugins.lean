/-
What is claimed about the shipped plugins: conservation of quanta, samplers that respect their range, the chains of plugins.
-/
import Verif.Model.Plugins

namespace Verif.Plugins
open Verif

/-- What every binomial sampler guarantees: a count among `n` trials. -/
def BinomialOk (b : Binomial) : Prop := ∀ p n, 0 ≤ n → 0 ≤ b p n ∧ b p n ≤ n

/-- What every Poisson sampler guarantees for an expectation that is not negative. -/
def PoissonOk (p : Poisson) : Prop := ∀ x, (.fin 0 : XF) ≤ x → 0 ≤ p x

/-- The counts of an event after the microphysics. -/
structure Counts where
  quanta : ℤ
  ions : ℤ
  excitons : ℤ
  photons : ℤ
  electrons : ℤ

/-- Quanta are conserved: every quantum is an ion or an exciton and ends as an electron or a photon, electrons come from ions. -/
structure Conserved (c : Counts) : Prop where
  split : c.excitons + c.ions = c.quanta
  out : c.photons + c.electrons = c.quanta
  fromIons : c.electrons ≤ c.ions
  excitons : 0 ≤ c.excitons
  ions : 0 ≤ c.ions
  photons : 0 ≤ c.photons
  electrons : 0 ≤ c.electrons

/-- The microphysics of `ERBand` and `ERPeak`: quanta, ionization, recombination.  Excitons are the quanta that are not ions. -/
noncomputable def chainER (r : Rounding) (big : Nat) (b1 b2 : Binomial) (z1 z2 : ℝ) (w fano nexNi mean std energy : XF) : Counts :=
  let q := quanta r big z1 w fano energy
  let i := ionizationER b1 nexNi q
  let o := recombinationER b2 q i (trueRecombER z2 mean std)
  ⟨q, i, q - i, o.1, o.2⟩

/-- The microphysics of the NEST NR components. -/
noncomputable def chainNR (r : Rounding) (big : Nat) (z1 z2 z3 z4 alpha2 : ℝ) (fanoNi fanoNex nph ne ratio alf recombProb var : XF) :
    Counts :=
  let t := trueExcitonIonNR r big z1 z2 fanoNi fanoNex nph ne ratio alf
  let o := truePhotonElectronNR r big z3 z4 alpha2 recombProb var t.1 t.2.1 t.2.2
  ⟨t.2.2, t.1, t.2.1, o.1, o.2⟩

/-- The microphysics of the NEST ER components. -/
noncomputable def chainNestER (r : Rounding) (big : Nat) (b : Binomial) (z1 z2 : ℝ) (nph ne fano alf recombProb var : XF) : Counts :=
  let t := trueExcitonIonER r big b z1 nph ne fano alf
  let o := truePhotonElectronER r big z2 recombProb var t.1 t.2.2
  ⟨t.2.2, t.1, t.2.1, o.1, o.2⟩

/-- The Thomas-Imel parameter of the first ER model. -/
noncomputable def boxParameter (w nexNi py0 py1 py2 energy field : ℝ) : ℝ :=
  (energy / (w * (1 + nexNi))) * (py0 * Real.exp (-energy / py1) * field ^ py2) / 4

/-- The Thomas-Imel box recombination. -/
noncomputable def boxRecombination (ti : ℝ) : ℝ := 1 - Real.log (1 + ti) / ti

/-- A smooth switch from 0 to 1 around the energy `c`, the steeper the larger `b`. -/
noncomputable def rolloff (c b energy : ℝ) : ℝ := energy ^ b / (energy ^ b + c ^ b)

/-- The Fermi-Dirac factor. -/
noncomputable def fermiDirac (py3 py4 energy : ℝ) : ℝ := 1 / (1 + Real.exp ((py3 - energy) / py4))

/-- A probability: a finite number in [0,1]. -/
def IsProb (x : XF) : Prop := ∃ y : ℝ, x = .fin y ∧ 0 ≤ y ∧ y ≤ 1

end Verif.Plugins
