/-
Helper lemmas for C133: log likelihoods of random counts.
-/
import Verif.Spec.Truth
import Mathlib.Probability.Distributions.Poisson.Basic
import Mathlib.Probability.Independence.Integration
import Mathlib.Analysis.SpecialFunctions.Log.Basic

namespace Verif.Truth
open MeasureTheory ProbabilityTheory

/-- What one bin loses on average when its prediction is wrong. -/
theorem gap_ge {l m : ℝ} (hl : 0 < l) (hm : 0 < m) : (√l - √m) ^ 2 ≤ (l * Real.log l - l) - (l * Real.log m - m) := by
  have h1 : Real.log (√(m / l)) ≤ √(m / l) - 1 := Real.log_le_sub_one_of_pos (Real.sqrt_pos.2 (by positivity))
  rw [Real.log_sqrt (by positivity), Real.log_div hm.ne' hl.ne'] at h1
  have h2 : l * √(m / l) = √l * √m := by
    rw [Real.sqrt_div hm.le]
    have : √l ≠ 0 := (Real.sqrt_pos.2 hl).ne'
    field_simp
    rw [Real.sq_sqrt hl.le]
  have e : (√l - √m) ^ 2 = l - 2 * (√l * √m) + m := by
    rw [sub_sq, Real.sq_sqrt hl.le, Real.sq_sqrt hm.le]
    ring
  rw [e, ← h2]
  nlinarith [mul_le_mul_of_nonneg_left h1 hl.le]

theorem gap_zero {l m : ℝ} (hl : 0 < l) (hm : 0 < m) (h : (l * Real.log l - l) - (l * Real.log m - m) ≤ 0) : m = l := by
  have h0 := (gap_ge hl hm).trans h
  have h1 : √l - √m = 0 := by nlinarith [sq_nonneg (√l - √m)]
  exact ((Real.sqrt_inj hl.le hm.le).1 (by linarith)).symm

/-- Half the log likelihood ratio of one bin, exponentiated and averaged over Poisson counts. -/
theorem poisson_ratio {l m : ℝ} (hl : 0 < l) (hm : 0 < m) :
    ∫⁻ k : ℕ, ENNReal.ofReal (Real.exp (((k * Real.log m - m) - (k * Real.log l - l)) / 2)) ∂(poissonMeasure l.toNNReal)
      = ENNReal.ofReal (Real.exp (-((√l - √m) ^ 2 / 2))) := by
  have hc : ((l.toNNReal : NNReal) : ℝ) = l := Real.coe_toNNReal l hl.le
  have hs : 0 < √l := Real.sqrt_pos.2 hl
  have hsm : 0 < √m := Real.sqrt_pos.2 hm
  have hterm : ∀ k : ℕ, Real.exp (-l) * l ^ k / (k.factorial : ℝ) * Real.exp (((k * Real.log m - m) - (k * Real.log l - l)) / 2)
      = Real.exp (-((√l - √m) ^ 2 / 2)) * (Real.exp (-(√l * √m)) * (√l * √m) ^ k / (k.factorial : ℝ)) := by
    intro k
    have e1 : l ^ k * Real.exp (((k * Real.log m - m) - (k * Real.log l - l)) / 2) = (√l * √m) ^ k * Real.exp ((l - m) / 2) := by
      have : ((k * Real.log m - m) - (k * Real.log l - l)) / 2 = (k : ℝ) * (Real.log m / 2 - Real.log l / 2) + (l - m) / 2 := by ring
      rw [this, Real.exp_add, ← mul_assoc, mul_comm (k : ℝ), ← Real.log_sqrt hm.le, ← Real.log_sqrt hl.le, ← Real.log_div hsm.ne' hs.ne',
        mul_comm (Real.log _), Real.exp_nat_mul, Real.exp_log (by positivity), ← mul_pow]
      congr 2
      have h2 : l = √l * √l := (Real.mul_self_sqrt hl.le).symm
      field_simp
      rw [Real.sq_sqrt hl.le]
    have e2 : -((√l - √m) ^ 2 / 2) + -(√l * √m) = -l + (l - m) / 2 := by
      rw [sub_sq, Real.sq_sqrt hl.le, Real.sq_sqrt hm.le]
      ring
    have e3 : Real.exp (-((√l - √m) ^ 2 / 2)) * Real.exp (-(√l * √m)) = Real.exp (-l) * Real.exp ((l - m) / 2) := by
      rw [← Real.exp_add, e2, Real.exp_add]
    calc _ = Real.exp (-l) * (l ^ k * Real.exp (((k * Real.log m - m) - (k * Real.log l - l)) / 2)) / (k.factorial : ℝ) := by ring
      _ = (Real.exp (-l) * Real.exp ((l - m) / 2)) * ((√l * √m) ^ k / (k.factorial : ℝ)) := by rw [e1]; ring
      _ = _ := by rw [← e3]; ring
  have hsum := hasSum_one_poissonMeasure (⟨√l * √m, by positivity⟩ : NNReal)
  change HasSum (fun k : ℕ => Real.exp (-(√l * √m)) * (√l * √m) ^ k / (k.factorial : ℝ)) 1 at hsum
  have hsum2 := hsum.mul_left (Real.exp (-((√l - √m) ^ 2 / 2)))
  rw [mul_one] at hsum2
  rw [lintegral_countable']
  have e : ∀ k : ℕ, ENNReal.ofReal (Real.exp (((k * Real.log m - m) - (k * Real.log l - l)) / 2)) * poissonMeasure l.toNNReal {k}
      = ENNReal.ofReal (Real.exp (-((√l - √m) ^ 2 / 2)) * (Real.exp (-(√l * √m)) * (√l * √m) ^ k / (k.factorial : ℝ))) := by
    intro k
    rw [poissonMeasure_singleton, ← ENNReal.ofReal_mul (Real.exp_pos _).le, ← hterm k, hc]
    congr 1
    ring
  simp only [e]
  rw [← ENNReal.ofReal_tsum_of_nonneg (fun k => by positivity) hsum2.summable, hsum2.tsum_eq]

/-- Independent Poisson counts prefer a wrong prediction by `t` or more with exponentially small probability. -/
theorem wrong_preferred_by {Ω ι : Type} [MeasurableSpace Ω] [Fintype ι] (μ : Measure Ω) [IsProbabilityMeasure μ] (n : ι → Ω → ℕ)
    (hmeas : ∀ c, Measurable (n c)) (l m : ι → ℝ) (hl : ∀ c, 0 < l c) (hm : ∀ c, 0 < m c) (hind : iIndepFun n μ)
    (hlaw : ∀ c, μ.map (n c) = poissonMeasure (l c).toNNReal) (t : ℝ) :
    μ.real {ω | ∑ c, (n c ω * Real.log (l c) - l c) + t ≤ ∑ c, (n c ω * Real.log (m c) - m c)}
      ≤ Real.exp (-(∑ c, (√(l c) - √(m c)) ^ 2 + t) / 2) := by
  let G : ι → ℕ → ENNReal := fun c k => ENNReal.ofReal (Real.exp (((k * Real.log (m c) - m c) - (k * Real.log (l c) - l c)) / 2))
  have hG : ∀ c, Measurable (G c) := fun c => measurable_of_countable _
  have hprod : ∀ ω, ∏ c, G c (n c ω)
      = ENNReal.ofReal (Real.exp ((∑ c, (n c ω * Real.log (m c) - m c) - ∑ c, (n c ω * Real.log (l c) - l c)) / 2)) := by
    intro ω
    simp only [G]
    rw [← ENNReal.ofReal_prod_of_nonneg (fun c _ => (Real.exp_pos _).le), ← Real.exp_sum, ← Finset.sum_div, ← Finset.sum_sub_distrib]
  have hint : ∫⁻ ω, ∏ c, G c (n c ω) ∂μ = ENNReal.ofReal (Real.exp (-(∑ c, (√(l c) - √(m c)) ^ 2) / 2)) := by
    have hi : iIndepFun (fun c ω => G c (n c ω)) μ := hind.comp G hG
    have h := lintegral_prod_eq_prod_lintegral_of_indepFun Finset.univ (fun c ω => G c (n c ω)) hi (fun c => (hG c).comp (hmeas c))
    rw [h]
    have e : ∀ c, ∫⁻ ω, G c (n c ω) ∂μ = ENNReal.ofReal (Real.exp (-((√(l c) - √(m c)) ^ 2 / 2))) := by
      intro c
      rw [← lintegral_map (f := G c) (hG c) (hmeas c), hlaw c]
      exact poisson_ratio (hl c) (hm c)
    simp only [e]
    rw [← ENNReal.ofReal_prod_of_nonneg (fun c _ => (Real.exp_pos _).le), ← Real.exp_sum]
    congr 2
    rw [Finset.sum_neg_distrib, ← Finset.sum_div]
    ring
  have hle : ENNReal.ofReal (Real.exp (t / 2)) * μ {ω | ∑ c, (n c ω * Real.log (l c) - l c) + t ≤ ∑ c, (n c ω * Real.log (m c) - m c)}
      ≤ ∫⁻ ω, ∏ c, G c (n c ω) ∂μ := by
    refine le_trans (mul_le_mul_right (measure_mono (t := {ω | ENNReal.ofReal (Real.exp (t / 2)) ≤ ∏ c, G c (n c ω)}) fun ω hω => ?_) _) ?_
    · simp only [Set.mem_ofPred_eq] at hω ⊢
      rw [hprod]
      refine ENNReal.ofReal_le_ofReal (Real.exp_le_exp.2 ?_)
      linarith
    · exact mul_meas_ge_le_lintegral₀ (μ := μ) (f := fun ω => ∏ c, G c (n c ω))
        (Finset.measurable_prod _ fun c _ => (hG c).comp (hmeas c)).aemeasurable _
  rw [hint] at hle
  have h2 := ENNReal.toReal_mono ENNReal.ofReal_ne_top hle
  rw [ENNReal.toReal_mul, ENNReal.toReal_ofReal (Real.exp_pos _).le, ENNReal.toReal_ofReal (Real.exp_pos _).le] at h2
  rw [show -(∑ c, (√(l c) - √(m c)) ^ 2 + t) / 2 = -(∑ c, (√(l c) - √(m c)) ^ 2) / 2 - t / 2 by ring, Real.exp_sub,
    le_div_iff₀ (Real.exp_pos _), mul_comm]
  exact h2

/-- Independent Poisson counts prefer a wrong prediction with exponentially small probability. -/
theorem wrong_preferred {Ω ι : Type} [MeasurableSpace Ω] [Fintype ι] (μ : Measure Ω) [IsProbabilityMeasure μ] (n : ι → Ω → ℕ)
    (hmeas : ∀ c, Measurable (n c)) (l m : ι → ℝ) (hl : ∀ c, 0 < l c) (hm : ∀ c, 0 < m c) (hind : iIndepFun n μ)
    (hlaw : ∀ c, μ.map (n c) = poissonMeasure (l c).toNNReal) :
    μ.real {ω | ∑ c, (n c ω * Real.log (l c) - l c) ≤ ∑ c, (n c ω * Real.log (m c) - m c)}
      ≤ Real.exp (-(∑ c, (√(l c) - √(m c)) ^ 2) / 2) := by
  have := wrong_preferred_by μ n hmeas l m hl hm hind hlaw 0
  simpa only [add_zero] using this

end Verif.Truth

namespace Verif.Llh
open Verif Comp MeasureTheory ProbabilityTheory

variable {Ω : Type} [MeasurableSpace Ω]

theorem logL_over_data (μ : Measure Ω) [IsProbabilityMeasure μ] (cells : List (Nat × Nat)) (n : Nat × Nat → Ω → ℕ) (l m : Nat × Nat → ℝ)
    (hi : ∀ c ∈ cells, Integrable (fun ω => (n c ω : ℝ)) μ) (hl : ∀ c ∈ cells, ∫ ω, (n c ω : ℝ) ∂μ = l c) :
    Integrable (fun ω => (cells.map (fun c => n c ω * Real.log (m c) - m c)).sum) μ ∧
    ∫ ω, (cells.map (fun c => n c ω * Real.log (m c) - m c)).sum ∂μ = (cells.map (fun c => l c * Real.log (m c) - m c)).sum := by
  induction cells with
  | nil => simp
  | cons c cs ih =>
    obtain ⟨i1, i2⟩ := ih (fun c' h => hi c' (List.mem_cons_of_mem _ h)) (fun c' h => hl c' (List.mem_cons_of_mem _ h))
    have j0 : Integrable (fun ω => n c ω * Real.log (m c)) μ := (hi c List.mem_cons_self).mul_const _
    have j1 : Integrable (fun ω => n c ω * Real.log (m c) - m c) μ := j0.sub (integrable_const _)
    simp only [List.map_cons, List.sum_cons]
    refine ⟨j1.add i1, ?_⟩
    rw [integral_add j1 i1, i2, integral_sub j0 (integrable_const _), integral_mul_const, hl c List.mem_cons_self]
    simp

theorem gap_sum (cells : List (Nat × Nat)) (l m : Nat × Nat → ℝ) (hl : ∀ c ∈ cells, 0 < l c) (hm : ∀ c ∈ cells, 0 < m c) :
    (cells.map (fun c => l c * Real.log (m c) - m c)).sum + (cells.map (fun c => (√(l c) - √(m c)) ^ 2)).sum
      ≤ (cells.map (fun c => l c * Real.log (l c) - l c)).sum := by
  rw [← List.sum_map_add]
  refine List.sum_le_sum fun c hc => ?_
  have := Truth.gap_ge (hl c hc) (hm c hc)
  linarith

theorem distance_nonneg (bins : Bins ℝ) (l m : Nat × Nat → ℝ) : 0 ≤ distance bins l m :=
  List.sum_nonneg (by
    intro x hx
    obtain ⟨c, -, rfl⟩ := List.mem_map.1 hx
    positivity)

theorem distance_zero (bins : Bins ℝ) (l m : Nat × Nat → ℝ) (hl : ∀ c ∈ binList bins, 0 ≤ l c) (hm : ∀ c ∈ binList bins, 0 ≤ m c) :
    distance bins l m = 0 ↔ ∀ c ∈ binList bins, m c = l c := by
  unfold distance
  constructor
  · intro h c hc
    have h0 := List.all_zero_of_le_zero_le_of_sum_eq_zero (by
      intro x hx
      obtain ⟨c, -, rfl⟩ := List.mem_map.1 hx
      positivity) h (List.mem_map.2 ⟨c, hc, rfl⟩)
    have h1 : √(l c) - √(m c) = 0 := pow_eq_zero_iff (two_ne_zero) |>.1 h0
    exact ((Real.sqrt_inj (hl c hc) (hm c hc)).1 (by linarith)).symm
  · intro h
    refine List.sum_eq_zero fun x hx => ?_
    obtain ⟨c, hc, rfl⟩ := List.mem_map.1 hx
    simp only [h c hc, sub_self, ne_eq, OfNat.ofNat_ne_zero, not_false_eq_true, zero_pow]

end Verif.Llh
