/-
Model of the shipped plugins, `appletree/plugins/*.py`, one event at a time.

Simplifications.  The plugins act on arrays element by element, so one element is modelled; what a random sampler draws for the
element is an argument (a standard normal or uniform number, a binomial or Poisson function).  Plugins that count quanta and
plugins that compute efficiencies take extended floats (`XF`), so NaN and infinities are inputs like any other.  Plugins that
compute mean yields take real numbers, with real powers, exponentials and logarithms.  Conversion of a float to an integer
follows XLA: NaN becomes zero and infinities the largest and smallest integer; integers do not overflow otherwise.
Maps are arguments: the value a map returned.
-/
import Mathlib.Analysis.Real.Sqrt
import Mathlib.Analysis.SpecialFunctions.Pow.Real
import Mathlib.Analysis.SpecialFunctions.Log.Base
import Mathlib.Analysis.SpecialFunctions.Trigonometric.Basic
import Verif.Base.XF

namespace Verif.Plugins
open Verif

/-! ### Array functions -/

/-- `jnp.maximum`: NaN if an operand is. -/
noncomputable def jmax (a b : XF) : XF :=
  match a, b with
  | .nan, _ => .nan
  | _, .nan => .nan
  | a, b => if a < b then b else a

/-- `jnp.minimum`: NaN if an operand is. -/
noncomputable def jmin (a b : XF) : XF :=
  match a, b with
  | .nan, _ => .nan
  | _, .nan => .nan
  | a, b => if b < a then b else a

/-- `jnp.clip`: first the lower bound, then the upper one. -/
noncomputable def clip (x lo hi : XF) : XF := jmin (jmax x lo) hi

/-- `jnp.clip` of integers. -/
def clipInt (x lo hi : ℤ) : ℤ := min (max x lo) hi

/-- `jnp.sqrt`: NaN below zero. -/
noncomputable def xsqrt : XF → XF
  | .fin x => if x < 0 then .nan else .fin (√x)
  | .pinf => .pinf
  | _ => .nan

/-- A way of rounding to integers: monotone and the identity on integers. -/
structure Rounding where
  fn : ℝ → ℤ
  mono : Monotone fn
  int : ∀ k : ℤ, fn k = k

/-- `x.round().astype(int)`; `big` is the largest integer. -/
noncomputable def roundInt (r : Rounding) (big : Nat) : XF → ℤ
  | .fin x => r.fn x
  | .nan => 0
  | .pinf => big
  | .ninf => -big

/-- `randgen.normal` for the standard normal draw `z`. -/
noncomputable def normal (z : ℝ) (mean std : XF) : XF := .fin z * std + mean

/-- `randgen.truncate_normal` with a lower bound only. -/
noncomputable def truncLow (z : ℝ) (mean std lo : XF) : XF := jmax (normal z mean std) lo

/-- `randgen.truncate_normal` with both bounds. -/
noncomputable def trunc (z : ℝ) (mean std lo hi : XF) : XF := clip (normal z mean std) lo hi

/-- `randgen.skewnormal` for the standard normal draws `z0` and `z1`. -/
noncomputable def skewnormal (z0 z1 a : ℝ) (loc scale : XF) : XF :=
  .fin ((a * |z0| + z1) / √(1 + a ^ 2)) * scale + loc

/-- One call of `randgen.binomial` for an element: the number drawn for a probability and a count. -/
abbrev Binomial := XF → ℤ → ℤ

/-- One call of `randgen.poisson` for an element. -/
abbrev Poisson := XF → ℤ

/-! ### er_microphys.py -/

/-- `Quanta` (er_microphys.py 13-26). -/
noncomputable def quanta (r : Rounding) (big : Nat) (z : ℝ) (w fano energy : XF) : ℤ :=
  let mean := energy / w
  let std := xsqrt (mean * fano)
  roundInt r big (truncLow z mean std (.fin 0))

/-- `IonizationER` (er_microphys.py 30-39). -/
noncomputable def ionizationER (b : Binomial) (nexNi : XF) (numQuanta : ℤ) : ℤ :=
  b (.fin 1 / (.fin 1 + nexNi)) numQuanta

/-- `mTI` (er_microphys.py 43-72), the mean recombination. -/
noncomputable def mTI (w nexNi py0 py1 py2 py3 py4 energy field : ℝ) : ℝ :=
  let ni := energy / w / (1 + nexNi)
  let ti := ni * py0 * Real.exp (-energy / py1) * field ^ py2 / 4
  let fd := 1 / (1 + Real.exp (-(energy - py3) / py4))
  let r := if ti < 1e-2 then ti / 2 - ti * ti / 3 else 1 - Real.log (1 + ti) / ti
  r * fd

/-- `RecombFluct` (er_microphys.py 76-85), its factor `1 - exp(-energy / rf1)` given. -/
noncomputable def recombFluct (rf0 fdFactor : XF) : XF := clip (rf0 * fdFactor) (.fin 0) (.fin 1)

/-- `TrueRecombER` (er_microphys.py 89-96). -/
noncomputable def trueRecombER (z : ℝ) (mean std : XF) : XF := trunc z mean std (.fin 0) (.fin 1)

/-- `RecombinationER` (er_microphys.py 100-109): photons and electrons. -/
noncomputable def recombinationER (b : Binomial) (numQuanta numIon : ℤ) (recomb : XF) : ℤ × ℤ :=
  let electrons := b (.fin 1 - recomb) numIon
  (numQuanta - electrons, electrons)

/-! ### nestv2.py -/

/-- `MonoEnergiesSpectra` (nestv2.py 20-46): the clip of a two-half-normal draw. -/
noncomputable def monoEnergies (draw : XF) : XF := clip draw (.fin 0) .pinf

/-- `TotalQuanta` (nestv2.py 80-88). -/
noncomputable def totalQuanta (alpha beta energy : ℝ) : ℝ := alpha * energy ^ beta

/-- `ThomasImelBox` (nestv2.py 92-102). -/
noncomputable def thomasImelBox (gamma delta density field : ℝ) : ℝ := gamma * field ^ delta * (density / 2.9) ^ (0.3 : ℝ)

/-- `QyNR` (nestv2.py 106-116). -/
noncomputable def qyNR (epsilon zeta eta energy ti : ℝ) : ℝ :=
  max (1 / ti / √(energy + epsilon) * (1 - 1 / (1 + (energy / zeta) ^ eta))) 0

/-- `LyNR` (nestv2.py 120-130). -/
noncomputable def lyNR (theta iota energy nq qy : ℝ) : ℝ :=
  max ((nq / energy - qy) * (1 - 1 / (1 + (energy / theta) ^ iota))) 0

/-- `MeanNphNe` (nestv2.py 134-144): mean photons and electrons. -/
noncomputable def meanNphNe (ly qy energy : ℝ) : ℝ × ℝ :=
  let nph := ly * energy
  let ne := qy * energy
  (if 1 ≤ nph + ne then nph else 0, if 1 ≤ nph + ne then ne else 0)

/-- What `MeanExcitonIon` provides. -/
structure ExcitonIon where
  nex : ℝ
  ni : ℝ
  ratio : ℝ
  alf : ℝ
  elecFrac : ℝ
  recombProb : ℝ

/-- `MeanExcitonIon` (nestv2.py 148-163). -/
noncomputable def meanExcitonIon (ti nph ne : ℝ) : ExcitonIon :=
  let nex := (-1 / ti) * (4 * Real.exp (ne * ti / 4) - (ne + nph) * ti - 4)
  let ni := (4 / ti) * (Real.exp (ne * ti / 4) - 1)
  let ratio := if 0 < ni then nex / ni else 1
  let nq := nph + ne
  let alf := 1 / (1 + ratio)
  let elecFrac := if 0 < nq then ne / nq else 0
  ⟨nex, ni, ratio, alf, elecFrac, 1 - (ratio + 1) * elecFrac⟩

/-- `TrueExcitonIonNR` (nestv2.py 167-187): ions, excitons and quanta. -/
noncomputable def trueExcitonIonNR (r : Rounding) (big : Nat) (z1 z2 : ℝ) (fanoNi fanoNex nph ne ratio alf : XF) : ℤ × ℤ × ℤ :=
  let mean := nph + ne
  let ni := roundInt r big (truncLow z1 (mean * alf) (xsqrt (fanoNi * mean * alf)) (.fin 0))
  let nex := roundInt r big (truncLow z2 (mean * ratio * alf) (xsqrt (fanoNex * mean * ratio * alf)) (.fin 0))
  (ni, nex, nex + ni)

/-- `OmegaNR` (nestv2.py 191-202). -/
noncomputable def omegaNR (A xi om elecFrac : ℝ) : ℝ := A * Real.exp (-0.5 * (elecFrac - xi) ^ 2 / om ^ 2)

/-- The electron number `TruePhotonElectronNR` draws before rounding (nestv2.py 213-229). -/
noncomputable def electronDrawNR (z0 z1 alpha2 : ℝ) (recombProb variance : XF) (ni : ℤ) : XF :=
  let width := √(1 - (2 / Real.pi) * alpha2 ^ 2 / (1 + alpha2 ^ 2))
  let mu := xsqrt variance / .fin width * .fin (alpha2 / √(1 + alpha2 ^ 2)) * .fin 2 * .fin (1 / √(2 * Real.pi))
  skewnormal z0 z1 alpha2 ((.fin 1 - recombProb) * .fin ni - mu) (xsqrt variance / .fin width)

/-- `TruePhotonElectronNR` (nestv2.py 206-232): photons and electrons. -/
noncomputable def truePhotonElectronNR (r : Rounding) (big : Nat) (z0 z1 alpha2 : ℝ) (recombProb variance : XF) (ni nex nq : ℤ) :
    ℤ × ℤ :=
  let electrons := clipInt (roundInt r big (electronDrawNR z0 z1 alpha2 recombProb variance ni)) 0 ni
  (max (nq - electrons) nex, electrons)

/-- `MonoEnergiesClipEff` (nestv2.py 235-265). -/
noncomputable def monoEnergiesClipEff (lower upper : ℝ) (center : XF) : XF :=
  if .fin lower ≤ center ∧ center ≤ .fin upper then .fin 1 else .fin 0

/-- `BandEnergiesClipEff` (nestv2.py 269-282, er_nestv2.py 244-257). -/
noncomputable def bandEnergiesClipEff : XF := .fin 1

/-! ### er_nestv2.py -/

/-- `ExcitonIonRatioER` (er_nestv2.py 20-32), `e` the error function of `energy * 0.05`. -/
noncomputable def excitonIonRatioER (density e : ℝ) : ℝ × ℝ :=
  let ratio := (0.067366 + 0.039693 * density) * e
  (ratio, 1 / (1 + ratio))

/-- The factor `QyER` multiplies the clipped yield with (er_nestv2.py 77-86). -/
noncomputable def qyCoefficient (density : ℝ) : ℝ :=
  let ti := (1 / density) ^ (0.3 : ℝ)
  let ni := (1 / density) ^ (1.4 : ℝ)
  let ol := (1 / density) ^ (-1.7 : ℝ) / Real.log (1 + ti * ni * density ^ (1.7 : ℝ))
  ol * Real.log (1 + ti * ni * density ^ (1.7 : ℝ)) * density ^ (-1.7 : ℝ)

/-- `QyER` (er_nestv2.py 36-88): the sum of terms before the clip is given. -/
noncomputable def qyER (density sum : ℝ) : ℝ := max sum 0 * qyCoefficient density

/-- `LyER` (er_nestv2.py 92-101). -/
noncomputable def lyER (w qy : ℝ) : ℝ := max (1 / w - qy) 0

/-- `MeanNphNeER` (er_nestv2.py 105-113). -/
noncomputable def meanNphNeER (ly qy energy : ℝ) : ℝ × ℝ := (ly * energy, qy * energy)

/-- `MeanExcitonIonER` (er_nestv2.py 117-126): electron fraction and recombination probability. -/
noncomputable def meanExcitonIonER (ratio nph ne : ℝ) : ℝ × ℝ :=
  let elecFrac := ne / (nph + ne)
  (elecFrac, max (1 - (ratio + 1) * elecFrac) 0)

/-- `FanoFactorER` (er_nestv2.py 130-158). -/
noncomputable def fanoFactorER (deltaF density nph ne field : ℝ) : ℝ :=
  let sign : ℝ := SignType.sign deltaF
  let const := 0.12707 - 0.029623 * density - 0.0057042 * density ^ 2 + 0.0015957 * density ^ 3
  (sign + 1) / 2 * |deltaF| + (1 - sign) / 2 * (const + |deltaF| * √((nph + ne) * field))

/-- `TrueExcitonIonER` (er_nestv2.py 162-177): ions, excitons and quanta. -/
noncomputable def trueExcitonIonER (r : Rounding) (big : Nat) (b : Binomial) (z : ℝ) (nph ne fano alf : XF) : ℤ × ℤ × ℤ :=
  let mean := nph + ne
  let nq := roundInt r big (trunc z mean (xsqrt (fano * mean)) (.fin 0) .pinf)
  let ni := b alf nq
  let nex := clipInt (nq - ni) 0 nq
  (clipInt ni 0 nq, nex, nq)

/-- `OmegaER` (er_nestv2.py 181-218): omega, the error function given. -/
noncomputable def omegaER (erf : ℝ → ℝ) (ampl cntr wide skew elecFrac : ℝ) : ℝ :=
  let mode := cntr + √(2 / Real.pi) * skew * wide / √(1 + skew * skew)
  let norm := 1 / (Real.exp (-0.5 * (mode - cntr) ^ 2 / (wide * wide)) * (1 + erf (skew * (mode - cntr) / (wide * √2))))
  max (norm * ampl * Real.exp (-0.5 * (elecFrac - cntr) ^ 2 / (wide * wide))
    * (1 + erf (skew * (elecFrac - cntr) / (wide * √2)))) 0

/-- The variance `OmegaER` and `OmegaNR` provide (er_nestv2.py 217, nestv2.py 201). -/
noncomputable def variance (omega recombProb : ℝ) (ni : ℤ) : ℝ := recombProb * (1 - recombProb) * ni + omega * omega * ni * ni

/-- The amplitude in `OmegaER` (er_nestv2.py 194-197). -/
noncomputable def amplER (A field : ℝ) : ℝ :=
  0.086036 + (A - 0.086036) / (1 + (field / 295.2) ^ (251.6 : ℝ)) ^ (0.0069114 : ℝ)

/-- `TruePhotonElectronER` (er_nestv2.py 222-240): photons and electrons. -/
noncomputable def truePhotonElectronER (r : Rounding) (big : Nat) (z : ℝ) (recombProb variance : XF) (ni nq : ℤ) : ℤ × ℤ :=
  let electrons := clipInt (roundInt r big (normal z ((.fin 1 - recombProb) * .fin ni) (xsqrt variance))) 0 ni
  (max (nq - electrons) 0, electrons)

/-! ### lyqy.py -/

/-- `LightYield` and `ChargeYield` (lyqy.py 22-31, 54-63): the map value, the nuisance parameter. -/
noncomputable def scaledYield (median t : XF) : XF := clip (median * (.fin 1 + t)) (.fin 0) .pinf

/-- `NumberPhoton` and `NumberElectron` (lyqy.py 35-42, 67-74). -/
noncomputable def numberQuanta (p : Poisson) (energy yield : XF) : ℤ := p (yield * energy)

/-! ### detector.py -/

/-- `PhotonDetection` (detector.py 81-90). -/
noncomputable def photonDetection (b : Binomial) (g1 pDpe lce : XF) (photons : ℤ) : ℤ :=
  b (clip (g1 * lce / (.fin 1 + pDpe)) (.fin 0) (.fin 1)) photons

/-- `S1PE` (detector.py 94-103). -/
noncomputable def s1PE (b : Binomial) (pDpe : XF) (phd : ℤ) : ℤ := b pDpe phd + phd

/-- `DriftLoss` (detector.py 115-125), the electron lifetime map's value given. -/
noncomputable def driftLoss (velocity sigma elife z : ℝ) : ℝ := Real.exp (-|z| / velocity / (elife * (1 + sigma)))

/-- `ElectronDrifted` (detector.py 129-136). -/
noncomputable def electronDrifted (b : Binomial) (survive : XF) (electrons : ℤ) : ℤ := b survive electrons

/-- `S2PE` (detector.py 147-166): the extracted electrons, the detected photons and the photoelectrons. -/
noncomputable def s2PE (b1 b2 : Binomial) (p : Poisson) (g2 gasGain pDpe rel lce : XF) (drifted : ℤ) : ℤ × ℤ × ℤ :=
  let extracted := b1 (g2 / (gasGain * rel)) drifted
  let gain := gasGain * rel * lce / (.fin 1 + pDpe)
  let phd := p (.fin extracted * gain)
  (extracted, phd, phd + b2 pDpe phd)

/-! ### efficiency.py -/

/-- `S2Threshold` (efficiency.py 13-20). -/
noncomputable def s2Threshold (threshold area : XF) : XF := if threshold < area then .fin 1 else .fin 0

/-- `S1ReconEff`, `S1CutAccept` and `S2CutAccept` (efficiency.py 32-83): the clipped map value. -/
noncomputable def clippedMap (value : XF) : XF := clip value (.fin 0) (.fin 1)

/-- `Eff` (efficiency.py 87-94). -/
noncomputable def eff (a b c d : XF) : XF := a * b * c * d

/-! ### common.py -/

/-- `UniformEnergySpectra` and `UniformEnergiesSpectra` (common.py 29-41, nestv2.py 64-76) for the uniform draw `u`. -/
noncomputable def uniformEnergy (lower upper u : ℝ) : ℝ := max lower (u * (upper - lower) + lower)

/-- `PositionSpectra` (common.py 101-114) for three uniform draws. -/
noncomputable def positionSpectra (zMin zMax rMax u1 u2 u3 : ℝ) : ℝ × ℝ × ℝ :=
  let z := max zMin (u1 * (zMax - zMin) + zMin)
  let r2 := max 0 (u2 * (rMax ^ 2 - 0) + 0)
  let theta := max 0 (u3 * (2 * Real.pi - 0) + 0)
  let r := √r2
  (r * Real.cos theta, r * Real.sin theta, z)

/-! ### reconstruction.py -/

/-- `PositionRecon` (reconstruction.py 23-38) for two standard normal draws, the resolution map's value given. -/
noncomputable def positionRecon (reso x y z n1 n2 : ℝ) : ℝ × ℝ × ℝ × ℝ :=
  let std := reso / √2
  let rx := x + (n1 * std + 0)
  let ry := y + (n2 * std + 0)
  (rx, ry, z, √(rx ^ 2 + ry ^ 2))

/-- `S1` and `S2` (reconstruction.py 56-94): the area from the number of photoelectrons. -/
noncomputable def area (bias smear z pe : ℝ) : ℝ := pe * (1 + (z * smear + bias))

/-- `cS1` (reconstruction.py 136-143). -/
noncomputable def cs1 (s1 correction : ℝ) : ℝ := s1 / correction

/-- `cS2` (reconstruction.py 147-154). -/
noncomputable def cs2 (s2 correction survive : ℝ) : ℝ := s2 / correction / survive

end Verif.Plugins
