/-
Moments of the corrected normal draw of the binomial sampler (randgen.py 262-292).
-/
import Verif.Lemmas.Randgen
import Verif.Lemmas.SkewMoments

namespace Verif.Randgen
open Verif MeasureTheory ProbabilityTheory Plugins

theorem N_int_cube : Integrable (fun x : ℝ => x ^ 3) (gaussianReal 0 1) := by
  have h := (memLp_id_gaussianReal (μ := 0) (v := 1) 3).integrable_norm_pow (by norm_num)
  refine (integrable_norm_iff (by fun_prop)).1 ?_
  simpa using h

theorem N_cube : ∫ x, x ^ 3 ∂(gaussianReal 0 1) = 0 := by
  have h : ∫ x, x ^ 3 ∂(gaussianReal 0 1) = ∫ x, (-x) ^ 3 ∂(gaussianReal 0 1) := by
    have hm := gaussianReal_map_neg (μ := 0) (v := 1)
    rw [neg_zero] at hm
    conv_lhs => rw [← hm]
    exact integral_map (by fun_prop) (by fun_prop)
  have h2 : ∫ x : ℝ, (-x) ^ 3 ∂(gaussianReal 0 1) = - ∫ x, x ^ 3 ∂(gaussianReal 0 1) := by
    rw [← integral_neg]
    congr 1
    funext x
    ring
  linarith

theorem cornishFisher_poly (p : ℝ) (n : ℤ) :
    ∃ a b c : ℝ, ∀ z, cornishFisher p n z = n * p + a * z + b * (z ^ 2 - 1) + c * z ^ 3 := by
  let sigma := √(n * p * (1 - p) + 1e-12)
  let g1 := (1 - p - p) / (sigma + 1e-12)
  let g2 := (1 - 6 * p * (1 - p)) / (n * p * (1 - p) + 1e-12)
  refine ⟨sigma * (1 - g2 / 8 + 5 * g1 ^ 2 / 36), sigma * g1 / 6, sigma * (g2 / 24 - g1 ^ 2 / 18), fun z => ?_⟩
  change n * p + sigma * (z + g1 / 6 * (z * z - 1) + g2 / 24 * (z * z * z - 3 * z) - g1 * g1 / 36 * (2 * (z * z * z) - 5 * z)) = _
  ring

theorem cornishFisher_integrable (p : ℝ) (n : ℤ) : Integrable (cornishFisher p n) (gaussianReal 0 1) := by
  obtain ⟨a, b, c, h⟩ := cornishFisher_poly p n
  rw [funext h]
  exact (((integrable_const _).add (N_int_id.const_mul a)).add ((N_int_sq.sub (integrable_const _)).const_mul b)).add
    (N_int_cube.const_mul c)

theorem cornishFisher_mean (p : ℝ) (n : ℤ) : ∫ z, cornishFisher p n z ∂(gaussianReal 0 1) = n * p := by
  obtain ⟨a, b, c, h⟩ := cornishFisher_poly p n
  simp only [h]
  have i1 : Integrable (fun z : ℝ => n * p + a * z) (gaussianReal 0 1) := (integrable_const _).add (N_int_id.const_mul a)
  have i2 : Integrable (fun z : ℝ => b * (z ^ 2 - 1)) (gaussianReal 0 1) := (N_int_sq.sub (integrable_const _)).const_mul b
  have i12 : Integrable (fun z : ℝ => n * p + a * z + b * (z ^ 2 - 1)) (gaussianReal 0 1) := i1.add i2
  have i3 : Integrable (fun z : ℝ => c * z ^ 3) (gaussianReal 0 1) := N_int_cube.const_mul c
  have e1 : ∫ z : ℝ, n * p + a * z ∂(gaussianReal 0 1) = n * p := by
    rw [integral_add (integrable_const _) (N_int_id.const_mul a), integral_const_mul a, N_id]
    simp
  have e2 : ∫ z : ℝ, b * (z ^ 2 - 1) ∂(gaussianReal 0 1) = 0 := by
    rw [integral_const_mul, integral_sub N_int_sq (integrable_const _), N_sq]
    simp
  have e3 : ∫ z : ℝ, c * z ^ 3 ∂(gaussianReal 0 1) = 0 := by
    rw [integral_const_mul, N_cube, mul_zero]
  rw [integral_add i12 i3, integral_add i1 i2, e1, e2, e3, add_zero, add_zero]

end Verif.Randgen
