/-
Helper lemmas: tails of the normal and of the two-half-normal law in terms of the error function.
-/
import Mathlib.Analysis.SpecialFunctions.Gaussian.GaussianIntegral
import Verif.Lemmas.TwoHalfNorm

namespace Verif.Randgen
open Verif MeasureTheory ProbabilityTheory

theorem gpdf_eq (x : ℝ) : gaussianPDFReal 0 1 x = (√(2 * Real.pi))⁻¹ * Real.exp (-(1 / 2) * x ^ 2) := by
  simp only [gaussianPDFReal, NNReal.coe_one, mul_one, sub_zero]
  congr 2
  ring

theorem sqrt_two_pi : √(2 * Real.pi) = √2 * √Real.pi := Real.sqrt_mul (by norm_num) _

theorem half_integral : ∫ x in Set.Ioi (0 : ℝ), gaussianPDFReal 0 1 x = 1 / 2 := by
  simp only [gpdf_eq]
  rw [integral_const_mul, integral_gaussian_Ioi]
  have : Real.pi / (1 / 2) = 2 * Real.pi := by ring
  rw [this]
  have hpi : √(2 * Real.pi) ≠ 0 := (Real.sqrt_pos.2 (by positivity)).ne'
  field_simp

theorem erf_scaled (a : ℝ) : erf (a / √2) = 2 * ∫ x in (0 : ℝ)..a, gaussianPDFReal 0 1 x := by
  unfold erf
  have h2 : √2 ≠ 0 := (Real.sqrt_pos.2 (by norm_num)).ne'
  have h := intervalIntegral.integral_comp_div (a := (0 : ℝ)) (b := a) (fun t => Real.exp (-t ^ 2)) h2
  rw [zero_div] at h
  have he : ∀ x : ℝ, Real.exp (-(x / √2) ^ 2) = Real.exp (-(1 / 2) * x ^ 2) := by
    intro x
    congr 1
    rw [div_pow, Real.sq_sqrt (by norm_num)]
    ring
  simp only [he, smul_eq_mul] at h
  simp only [gpdf_eq]
  rw [intervalIntegral.integral_const_mul, h, sqrt_two_pi]
  have hpi : √Real.pi ≠ 0 := (Real.sqrt_pos.2 Real.pi_pos).ne'
  field_simp

theorem gaussian_tail (a : ℝ) : G (Set.Ioi a) = ENNReal.ofReal ((1 - erf (a / √2)) / 2) := by
  rw [gaussianReal_apply_eq_integral _ one_ne_zero]
  congr 1
  have hi : Integrable (gaussianPDFReal 0 1) := integrable_gaussianPDFReal 0 1
  have h := intervalIntegral.integral_Ioi_sub_Ioi' (a := (0 : ℝ)) (b := a) (f := gaussianPDFReal 0 1) (μ := volume)
    hi.integrableOn hi.integrableOn
  rw [half_integral] at h
  rw [erf_scaled]
  linarith

theorem tail_nonneg (a : ℝ) : 0 ≤ (1 - erf (a / √2)) / 2 := by
  have hi : Integrable (gaussianPDFReal 0 1) := integrable_gaussianPDFReal 0 1
  have h := intervalIntegral.integral_Ioi_sub_Ioi' (a := (0 : ℝ)) (b := a) (f := gaussianPDFReal 0 1) (μ := volume)
    hi.integrableOn hi.integrableOn
  rw [half_integral] at h
  rw [erf_scaled]
  have : 0 ≤ ∫ x in Set.Ioi a, gaussianPDFReal 0 1 x := integral_nonneg (fun x => gaussianPDFReal_nonneg _ _ _)
  linarith

theorem oneSigma_eq : oneSigma = erf (1 / √2) := by
  unfold oneSigma
  rw [measureReal_def, gaussianReal_apply_eq_integral _ one_ne_zero,
    ENNReal.toReal_ofReal (integral_nonneg (fun x => gaussianPDFReal_nonneg _ _ _)), erf_scaled,
    integral_Icc_eq_integral_Ioc, ← intervalIntegral.integral_of_le (by norm_num)]
  have hi : Integrable (gaussianPDFReal 0 1) := integrable_gaussianPDFReal 0 1
  rw [← intervalIntegral.integral_add_adjacent_intervals (a := (-1 : ℝ)) (b := 0) (c := 1) hi.intervalIntegrable
    hi.intervalIntegrable]
  have : ∫ x in (-1 : ℝ)..0, gaussianPDFReal 0 1 x = ∫ x in (0 : ℝ)..1, gaussianPDFReal 0 1 x := by
    have h := intervalIntegral.integral_comp_neg (a := (0 : ℝ)) (b := 1) (gaussianPDFReal 0 1)
    rw [neg_zero] at h
    rw [← h]
    congr 1
    funext x
    rw [gpdf_eq, gpdf_eq, neg_sq]
  rw [this]
  ring

theorem scaled_tail (mu c e : ℝ) (hc : 0 < c) : gaussianReal mu (sq c) (Set.Ioi (mu + e)) = G (Set.Ioi (e / c)) := by
  rw [← map_affine mu c, Measure.map_apply (by fun_prop) measurableSet_Ioi]
  congr 1
  ext z
  simp only [Set.mem_preimage, Set.mem_Ioi]
  rw [div_lt_iff₀ hc]
  constructor <;> intro h <;> linarith

theorem scaled_tail_low (mu c e : ℝ) (hc : 0 < c) : gaussianReal mu (sq (-c)) (Set.Iio (mu - e)) = G (Set.Ioi (e / c)) := by
  rw [← map_affine mu (-c), Measure.map_apply (by fun_prop) measurableSet_Iio]
  congr 1
  ext z
  simp only [Set.mem_preimage, Set.mem_Ioi, Set.mem_Iio]
  rw [div_lt_iff₀ hc]
  constructor <;> intro h <;> linarith

theorem thn_upper_tail (mu sp sn e : ℝ) (hp : 0 < sp) (hn : 0 < sn) (he : 0 ≤ e) :
    lawOf (ell mu sp sn) (Set.Ioi (mu + e)) = ENNReal.ofReal (sp / (sp + sn) * (1 - erf (e / sp / √2))) := by
  rw [lawOf, ← thn_law mu sp sn hp hn, Measure.map_apply (thnValue_measurable mu sp sn) measurableSet_Ioi]
  have hset : (fun w : ℝ × ℝ => thnValue mu sp sn w.1 w.2) ⁻¹' Set.Ioi (mu + e)
      = Set.Iio (sp / (sp + sn)) ×ˢ {z | mu + |z| * sp ∈ Set.Ioi (mu + e)} := by
    ext ⟨u, z⟩
    simp only [Set.mem_preimage, Set.mem_prod, Set.mem_Iio, Set.mem_setOf_eq]
    by_cases h : u < sp / (sp + sn)
    · rw [thnValue_pos h]
      simp [h]
    · rw [thnValue_neg h]
      simp only [h, Set.mem_Ioi, false_and, iff_false, not_lt]
      have : 0 ≤ |z| * sn := mul_nonneg (abs_nonneg z) hn.le
      linarith
  have hP1 : sp / (sp + sn) ≤ 1 := by
    rw [div_le_one (by positivity)]
    linarith
  have hi : Set.Ioi (mu + e) ∩ beyond mu sp = Set.Ioi (mu + e) := by
    ext x
    simp only [beyond, Set.mem_inter_iff, Set.mem_Ioi, Set.mem_setOf_eq, and_iff_left_iff_imp]
    intro hx
    rw [lt_div_iff₀ hp]
    linarith
  rw [hset, Measure.prod_prod, unif_lt _ (by positivity) hP1, abs_law mu sp hp.ne' _ measurableSet_Ioi, hi,
    scaled_tail mu sp e hp, gaussian_tail, show (2 : ENNReal) = ENNReal.ofReal 2 by simp,
    ← ENNReal.ofReal_mul (by norm_num), ← ENNReal.ofReal_mul (by positivity)]
  congr 1
  ring

theorem thn_lower_tail (mu sp sn e : ℝ) (hp : 0 < sp) (hn : 0 < sn) (he : 0 ≤ e) :
    lawOf (ell mu sp sn) (Set.Iio (mu - e)) = ENNReal.ofReal (sn / (sp + sn) * (1 - erf (e / sn / √2))) := by
  rw [lawOf, ← thn_law mu sp sn hp hn, Measure.map_apply (thnValue_measurable mu sp sn) measurableSet_Iio]
  have hset : (fun w : ℝ × ℝ => thnValue mu sp sn w.1 w.2) ⁻¹' Set.Iio (mu - e)
      = Set.Ici (sp / (sp + sn)) ×ˢ {z | mu + |z| * (-sn) ∈ Set.Iio (mu - e)} := by
    ext ⟨u, z⟩
    simp only [Set.mem_preimage, Set.mem_prod, Set.mem_Ici, Set.mem_setOf_eq]
    by_cases h : u < sp / (sp + sn)
    · rw [thnValue_pos h]
      simp only [Set.mem_Iio, not_le.2 h, false_and, iff_false, not_lt]
      have : 0 ≤ |z| * sp := mul_nonneg (abs_nonneg z) hp.le
      linarith
    · rw [thnValue_neg h]
      simp [not_lt.1 h]
  have hP1 : sp / (sp + sn) ≤ 1 := by
    rw [div_le_one (by positivity)]
    linarith
  have hi : Set.Iio (mu - e) ∩ beyond mu (-sn) = Set.Iio (mu - e) := by
    ext x
    simp only [beyond, Set.mem_inter_iff, Set.mem_Iio, Set.mem_setOf_eq, and_iff_left_iff_imp]
    intro hx
    rw [div_neg, ← neg_div, lt_div_iff₀ hn]
    linarith
  have h1P : 1 - sp / (sp + sn) = sn / (sp + sn) := by
    have : sp + sn ≠ 0 := by positivity
    field_simp
    ring
  rw [hset, Measure.prod_prod, unif_ge _ (by positivity) hP1, abs_law mu (-sn) (neg_ne_zero.2 hn.ne') _ measurableSet_Iio, hi,
    scaled_tail_low mu sn e hn, gaussian_tail, h1P, show (2 : ENNReal) = ENNReal.ofReal 2 by simp,
    ← ENNReal.ofReal_mul (by norm_num), ← ENNReal.ofReal_mul (by positivity)]
  congr 1
  ring

end Verif.Randgen
