/-
Vocabulary for C149: measured yields with errors.
-/
import Verif.Spec.Likelihood
import Verif.Model.Likelihood
import Mathlib.MeasureTheory.Measure.WithDensity
import Mathlib.MeasureTheory.Measure.Lebesgue.Basic

namespace Verif.Llh
open Verif

/-- A measured yield with its errors upwards and downwards, and the efficiency with which the simulated yield is weighted. -/
structure Measured where
  mu : ℝ
  sp : ℝ
  sn : ℝ
  eff : ℝ

/-- The distance of a yield from the measured one, in units of the error on its side. -/
noncomputable def Measured.pull (m : Measured) (y : ℝ) : ℝ := (y - m.mu) / (if y < m.mu then m.sn else m.sp)

/-- The errors of the measured yields are given as two-half-normal, or as normal with one error each. -/
def Describes (shape : Shape) (ms : List Measured) : Prop :=
  shape = .twohalfnorm (ms.map (·.mu)) (ms.map (·.sp)) (ms.map (·.sn)) ∨
  (shape = .norm (ms.map (·.mu)) (ms.map (·.sp)) ∧ ∀ m ∈ ms, 0 < m.sp ∧ m.sn = m.sp)

/-- A measurement that could be repeated: the measured yield differs each time, the errors are those of the method. -/
structure Trial (Ω : Type) where
  centre : Ω → ℝ
  sp : ℝ
  sn : ℝ
  eff : ℝ
  truth : ℝ

/-- What is measured at one repetition. -/
def Trial.at {Ω : Type} (t : Trial Ω) (ω : Ω) : Measured := ⟨t.centre ω, t.sp, t.sn, t.eff⟩

/-- The errors mean what they say: the distance from the measured to the true yield follows the two-half-normal law with these widths. -/
def Trial.Honest {Ω : Type} [MeasurableSpace Ω] (t : Trial Ω) (P : MeasureTheory.Measure Ω) : Prop :=
  Measurable t.centre ∧ P.map (fun ω => t.truth - t.centre ω) =
    MeasureTheory.volume.withDensity (fun x => ENNReal.ofReal (twoHalfDensity 0 t.sp t.sn x))

/-- A simulation of one yield per measured yield, `y`, at the parameters `p`. -/
def Simulates {K : Type} (al : PyDict String String) (s : LitState K) (p : PyDict String XF) (key k' : K) (ys effs : List ℝ) : Prop :=
  ∃ n c e, s.components = [(n, c)] ∧ c key 1 (replaceAlias al p) = .ok (k', [e, ys.map .fin, effs.map .fin])

end Verif.Llh
