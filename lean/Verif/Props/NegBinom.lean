/-
C69, end to end: the law of a negative binomial draw.
-/
import Verif.Lemmas.NegBinom

namespace Verif.Randgen
open Verif MeasureTheory ProbabilityTheory

/-- **C69 (law).** With ideal gamma and Poisson draws, independent between keys, each element of a negative binomial draw has the
negative binomial distribution of its own parameters. -/
theorem C69_law {m : Nat} {Ω : Type} [MeasurableSpace Ω] {P : Measure Ω} [IsProbabilityMeasure P] {r : Ω → Rng m}
    {sig : Key → MeasurableSpace Ω} (hr : IdealDraws P r sig) (p n : Fin m → ℝ) (s : St) (i : Fin m) (hn : 0 < n i)
    (h0 : 0 < p i) (h1 : p i < 1) (k : Nat) :
    P {ω | (negativeBinomial (r ω) p n s).1 i = k} =
      ENNReal.ofReal (Real.Gamma (n i + k) / (k.factorial * Real.Gamma (n i)) * p i ^ n i * (1 - p i) ^ k) :=
  negBinom_law hr (s.key.child 2 1) ((s.key.child 2 0).child 2 1) (by simp [Key.child]) p n i hn h0 h1 k

/-- Non-vacuity: ideal draws exist for every number of elements, and two elements with different parameters. -/
example : ∃ (Ω : Type) (_ : MeasurableSpace Ω) (P : Measure Ω) (_ : IsProbabilityMeasure P) (r : Ω → Rng 2) (sig : Key → MeasurableSpace Ω),
    IdealDraws P r sig ∧ ∀ s, P {ω | (negativeBinomial (r ω) ![1 / 2, 1 / 4] ![1, 3] s).1 0 = 1} = ENNReal.ofReal (1 / 4) := by
  refine ⟨_, _, mixedLaw 2, inferInstance, mixedRng 2, _, idealDraws_exist 2, fun s => ?_⟩
  rw [C69_law (idealDraws_exist 2) _ _ s 0 (by norm_num) (by norm_num) (by norm_num) 1]
  congr 1
  simp only [Matrix.cons_val_zero, Nat.cast_one, Nat.factorial_one]
  rw [Real.Gamma_add_one one_ne_zero, Real.Gamma_one]
  norm_num

end Verif.Randgen
