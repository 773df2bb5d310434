/-
Property theorems C78: the generalized Poisson sampler (randgen.py 473-515) under ideal Poisson draws.
-/
import Verif.Lemmas.GenPoisson

namespace Verif.Randgen
open Verif MeasureTheory ProbabilityTheory
open scoped ENNReal

variable {m : Nat} {Ω : Type} [MeasurableSpace Ω] {P : Measure Ω} {r : Ω → Rng m}

/-- **C78 (the loop ends).** For scales below one the sampler ends with probability one. -/
theorem C78_ends_almost_surely (hr : IdealPoisson P r) (lam eta : Fin m → ℝ) (hl : ∀ i, 0 ≤ lam i)
    (he : ∀ i, 0 ≤ eta i ∧ eta i < 1) (s : St) : ∀ᵐ ω ∂P, ∃ fuel v, (generalizedPoisson fuel (r ω) lam eta s).1 = some v := by
  filter_upwards [extinct hr lam eta (seedAt s.key) (seedAt_injective _) hl (fun i => (he i).1) (fun i => (he i).2)]
    with ω ⟨K, hK⟩
  exact ⟨K + 1, gp_ends (r ω) lam eta s K hK⟩

/-- **C78 (law).** For scales below one every element follows the generalized Poisson distribution with location
`lam * (1 - eta)`. -/
theorem C78_law (hr : IdealPoisson P r) (lam eta : Fin m → ℝ) (hl : ∀ i, 0 ≤ lam i)
    (he : ∀ i, 0 ≤ eta i ∧ eta i < 1) (s : St) (i : Fin m) (n : Nat) :
    P {ω | ∃ fuel v, (generalizedPoisson fuel (r ω) lam eta s).1 = some v ∧ v i = n} =
      ENNReal.ofReal (gpPmf (lam i * (1 - eta i)) (eta i) n) := by
  rw [← total_law hr lam eta (seedAt s.key) (seedAt_injective _) i (hl i) (he i).1 (he i).2.le n]
  apply measure_congr
  filter_upwards [extinct hr lam eta (seedAt s.key) (seedAt_injective _) hl (fun i => (he i).1) (fun i => (he i).2)]
    with ω ⟨K, hK⟩
  have hz : ∀ k l, l i = 0 → (r ω).poisson k l i = 0 := fun k l h => hr.zero ω k l i h
  apply propext
  constructor
  · rintro ⟨fuel, v, h1, h2⟩
    obtain ⟨K', h3, h4⟩ := gp_some fuel (r ω) lam eta s v h1
    exact (total_iff (r ω) lam eta _ i hz K' n (h3 i)).1 (by rw [← h4, h2])
  · intro h
    obtain ⟨v, hv⟩ := gp_ends (r ω) lam eta s K hK
    obtain ⟨K', h3, h4⟩ := gp_some _ (r ω) lam eta s v hv
    exact ⟨_, v, hv, by rw [h4]; exact (total_iff (r ω) lam eta _ i hz K' n (h3 i)).2 h⟩

/-- **C78 (mean).** The expectation of every element is `lam`, as documented. -/
theorem C78_mean (hr : IdealPoisson P r) (lam eta : Fin m → ℝ) (hl : ∀ i, 0 ≤ lam i)
    (he : ∀ i, 0 ≤ eta i ∧ eta i < 1) (s : St) (i : Fin m) :
    ∑' n : Nat, (n : ℝ≥0∞) * P {ω | ∃ fuel v, (generalizedPoisson fuel (r ω) lam eta s).1 = some v ∧ v i = n} =
      ENNReal.ofReal (lam i) := by
  rw [← total_mean hr lam eta hl (fun i => (he i).1) (fun i => (he i).2) i]
  exact tsum_congr (fun n => by rw [C78_law hr lam eta hl he s i n])

/-- **C78 (distribution).** The probabilities of the law add up to one. -/
theorem C78_distribution_total (theta eta : ℝ) (ht : 0 ≤ theta) (h0 : 0 ≤ eta) (h1 : eta < 1) :
    ∑' n, ENNReal.ofReal (gpPmf theta eta n) = 1 := by
  have h := total_sum (ideal_exists 1) (fun _ => theta / (1 - eta)) (fun _ => eta)
    (fun _ => div_nonneg ht (by linarith)) (fun _ => h0) (fun _ => h1) 0
  have : (1 - eta) ≠ 0 := by linarith
  rwa [div_mul_cancel₀ _ this] at h

/-- Non-vacuity of C78: ideal draws exist for every number of elements; the law at a scale of one half. -/
example (m : Nat) : ∃ (P : Measure (Key → Fin m → ℝ)) (r : (Key → Fin m → ℝ) → Rng m), IsProbabilityMeasure P ∧
    IdealPoisson P r := ⟨idealLaw m, idealRng m, inferInstance, ideal_exists m⟩

example (s : St) : idealLaw 1 {ω | ∃ fuel v, (generalizedPoisson fuel (idealRng 1 ω) (fun _ => 4) (fun _ => 1 / 2) s).1 = some v ∧
    v 0 = 0} = ENNReal.ofReal (Real.exp (-2)) := by
  rw [C78_law (ideal_exists 1) _ _ (fun _ => by norm_num) (fun _ => by norm_num) s 0 0, gpPmf]
  norm_num

end Verif.Randgen
