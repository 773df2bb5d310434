/-
Helper lemmas: mean and variance of a skew-normal draw.
-/
import Mathlib.MeasureTheory.Integral.Gamma
import Mathlib.MeasureTheory.Measure.Lebesgue.Integral
import Verif.Lemmas.Omega

namespace Verif.Plugins
open Verif Randgen MeasureTheory ProbabilityTheory

/-- The standard normal law. -/
noncomputable abbrev N : Measure ℝ := gaussianReal 0 1

theorem N_abs : ∫ x, |x| ∂N = A := by
  rw [integral_gaussianReal_eq_integral_smul one_ne_zero]
  have h1 : ∀ x : ℝ, gaussianPDFReal 0 1 x • |x| = (fun y : ℝ => (√(2 * Real.pi))⁻¹ * (y * Real.exp (-(1 / 2) * y ^ 2))) |x| := by
    intro x
    simp only [gpdf_eq, smul_eq_mul, sq_abs]
    ring
  simp only [h1]
  rw [integral_comp_abs (f := fun y : ℝ => (√(2 * Real.pi))⁻¹ * (y * Real.exp (-(1 / 2) * y ^ 2))), integral_const_mul]
  have h := integral_rpow_mul_exp_neg_mul_rpow (p := 2) (q := 1) (b := 1 / 2) (by norm_num) (by norm_num) (by norm_num)
  have h2 : ∫ x in Set.Ioi (0 : ℝ), x * Real.exp (-(1 / 2) * x ^ 2) = 1 := by
    have he : ∀ x : ℝ, x * Real.exp (-(1 / 2) * x ^ 2) = x ^ (1 : ℝ) * Real.exp (-(1 / 2) * x ^ (2 : ℝ)) := by
      intro x
      rw [Real.rpow_one, Real.rpow_two]
    simp only [he]
    rw [h]
    norm_num
  rw [h2, A_eq, sqrt_two_pi]
  have hs2 : √2 ≠ 0 := (Real.sqrt_pos.2 (by norm_num)).ne'
  have hp : √Real.pi ≠ 0 := (Real.sqrt_pos.2 Real.pi_pos).ne'
  field_simp

theorem N_id : ∫ x, x ∂N = 0 := integral_id_gaussianReal

theorem N_int_id : Integrable (fun x : ℝ => x) N := (memLp_id_gaussianReal (μ := 0) (v := 1) 1).integrable (by norm_num)

theorem N_int_abs : Integrable (fun x : ℝ => |x|) N := N_int_id.abs

theorem N_int_sq : Integrable (fun x : ℝ => x ^ 2) N := (memLp_id_gaussianReal (μ := 0) (v := 1) 2).integrable_sq

theorem N_sq : ∫ x, x ^ 2 ∂N = 1 := by
  have h := variance_fun_id_gaussianReal (μ := 0) (v := 1)
  rw [variance_eq_integral measurable_id'.aemeasurable] at h
  simpa [integral_id_gaussianReal] using h

theorem skew_mean (a k loc : ℝ) : ∫ z0, ∫ z1, k * (a * |z0| + z1) + loc ∂N ∂N = k * a * A + loc := by
  have h1 : ∀ z0 : ℝ, ∫ z1, k * (a * |z0| + z1) + loc ∂N = k * a * |z0| + loc := by
    intro z0
    have hi : Integrable (fun z1 : ℝ => a * |z0| + z1) N := (integrable_const _).add N_int_id
    rw [integral_add (hi.const_mul k) (integrable_const _), integral_const_mul, integral_add (integrable_const _) N_int_id, N_id]
    simp
    ring
  simp only [h1]
  rw [integral_add (N_int_abs.const_mul _) (integrable_const _), integral_const_mul, N_abs]
  simp

theorem skew_var (a k : ℝ) : ∫ z0, ∫ z1, (k * (a * (|z0| - A) + z1)) ^ 2 ∂N ∂N = k ^ 2 * (1 + a ^ 2 * (1 - 2 / Real.pi)) := by
  have h1 : ∀ z0 : ℝ, ∫ z1, (k * (a * (|z0| - A) + z1)) ^ 2 ∂N = k ^ 2 * (a ^ 2 * (z0 ^ 2 - 2 * A * |z0| + A ^ 2) + 1) := by
    intro z0
    have he : ∀ z1 : ℝ, (k * (a * (|z0| - A) + z1)) ^ 2
        = k ^ 2 * z1 ^ 2 + (2 * k ^ 2 * (a * (|z0| - A)) * z1 + k ^ 2 * (a * (|z0| - A)) ^ 2) := by intro z1; ring
    simp only [he]
    have hlin : Integrable (fun z1 : ℝ => 2 * k ^ 2 * (a * (|z0| - A)) * z1 + k ^ 2 * (a * (|z0| - A)) ^ 2) N :=
      (N_int_id.const_mul _).add (integrable_const _)
    rw [integral_add (N_int_sq.const_mul _) hlin, integral_const_mul, N_sq, integral_add (N_int_id.const_mul _) (integrable_const _),
      integral_const_mul, N_id]
    simp
    have : (|z0| - A) ^ 2 = z0 ^ 2 - 2 * A * |z0| + A ^ 2 := by rw [sub_sq, sq_abs]; ring
    rw [mul_pow, this]
    ring
  simp only [h1]
  rw [integral_const_mul]
  congr 1
  have hs : Integrable (fun z0 : ℝ => z0 ^ 2 - 2 * A * |z0|) N := N_int_sq.sub (N_int_abs.const_mul _)
  have hq : Integrable (fun z0 : ℝ => z0 ^ 2 - 2 * A * |z0| + A ^ 2) N := hs.add (integrable_const _)
  rw [integral_add (hq.const_mul _) (integrable_const _), integral_const_mul,
    integral_add hs (integrable_const _), integral_sub N_int_sq (N_int_abs.const_mul _),
    integral_const_mul, N_sq, N_abs]
  simp
  have hA := A_sq
  have : 2 * A * A = 2 * A ^ 2 := by ring
  rw [this, hA]
  ring

end Verif.Plugins
