/-
Helper lemmas: the error function, and the skewed bell curve of the recombination fluctuations away from its maximum.
-/
import Mathlib.Analysis.Calculus.LocalExtr.Basic
import Mathlib.Analysis.Real.Pi.Bounds
import Mathlib.MeasureTheory.Integral.IntervalIntegral.FundThmCalculus
import Mathlib.Analysis.SpecialFunctions.ExpDeriv
import Verif.Spec.Plugins
import Verif.Lemmas.Erf

namespace Verif.Plugins
open Verif Randgen

theorem erf_zero : erf 0 = 0 := by simp [erf]

theorem exp_sq_cont : Continuous (fun t : ℝ => Real.exp (-t ^ 2)) := by fun_prop

theorem hasDerivAt_erf (x : ℝ) : HasDerivAt erf (2 / √Real.pi * Real.exp (-x ^ 2)) x := by
  have h := exp_sq_cont.integral_hasStrictDerivAt 0 x
  exact h.hasDerivAt.const_mul (2 / √Real.pi)

theorem erf_mono : Monotone erf := by
  apply monotone_of_deriv_nonneg (fun x => (hasDerivAt_erf x).differentiableAt)
  intro x
  rw [(hasDerivAt_erf x).deriv]
  positivity

theorem erf_nonneg {x : ℝ} (h : 0 ≤ x) : 0 ≤ erf x := by
  rw [← erf_zero]
  exact erf_mono h

/-- Below its average the decreasing integrand is at least its last value. -/
theorem erf_lower {x : ℝ} (h : 0 ≤ x) : 2 / √Real.pi * (x * Real.exp (-x ^ 2)) ≤ erf x := by
  unfold erf
  apply mul_le_mul_of_nonneg_left _ (by positivity)
  have hc : ∫ t in (0 : ℝ)..x, Real.exp (-x ^ 2) = x * Real.exp (-x ^ 2) := by simp
  rw [← hc]
  apply intervalIntegral.integral_mono_on h intervalIntegrable_const (exp_sq_cont.intervalIntegrable _ _)
  intro t ht
  apply Real.exp_le_exp.2
  have := pow_le_pow_left₀ ht.1 ht.2 2
  linarith

/-- `sqrt(2 / pi)`. -/
noncomputable def A : ℝ := √(2 / Real.pi)

theorem A_pos : 0 < A := Real.sqrt_pos.2 (by positivity)
theorem A_sq : A ^ 2 = 2 / Real.pi := Real.sq_sqrt (by positivity)

theorem A_eq : A = 2 / √Real.pi * (1 / √2) := by
  unfold A
  rw [Real.sqrt_div (by norm_num)]
  have h2 : √2 ≠ 0 := (Real.sqrt_pos.2 (by norm_num)).ne'
  have hp : √Real.pi ≠ 0 := (Real.sqrt_pos.2 Real.pi_pos).ne'
  field_simp
  norm_num

theorem A_lower : 0.79 < A := by
  apply Real.lt_sqrt_of_sq_lt
  rw [lt_div_iff₀ Real.pi_pos]
  have := Real.pi_lt_d4
  norm_num at this ⊢
  linarith

theorem erf_scaled_lower {y : ℝ} (h : 0 ≤ y) : A * y * Real.exp (-(y ^ 2 / 2)) ≤ erf (y / √2) := by
  have h1 := erf_lower (x := y / √2) (by positivity)
  have h2 : (y / √2) ^ 2 = y ^ 2 / 2 := by rw [div_pow, Real.sq_sqrt (by norm_num)]
  rw [h2] at h1
  rw [A_eq]
  calc _ = 2 / √Real.pi * (y / √2 * Real.exp (-(y ^ 2 / 2))) := by ring
    _ ≤ _ := h1

/-- The inequality that puts the maximum of the skewed bell curve away from its mean. -/
theorem core (r : ℝ) (h1 : 1 < r) :
    r * Real.exp (-((A * (r - 1 / r)) ^ 2 / 2)) < 1 + erf (A * (r - 1 / r) / √2) := by
  have hr : 0 < r := by linarith
  have hd : 0 < r - 1 / r := by
    rw [sub_pos, div_lt_iff₀ hr]
    nlinarith
  have hy : 0 < A * (r - 1 / r) := mul_pos A_pos hd
  have hpi := Real.pi_lt_d4
  have hpi3 := Real.pi_gt_three
  rcases le_or_gt r (7 / 4) with h | h
  · have he := erf_scaled_lower hy.le
    have hexp : Real.exp (-((A * (r - 1 / r)) ^ 2 / 2)) ≤ 1 := Real.exp_le_one_iff.2 (by
      have : 0 ≤ (A * (r - 1 / r)) ^ 2 / 2 := by positivity
      linarith)
    have hpos := Real.exp_pos (-((A * (r - 1 / r)) ^ 2 / 2))
    have hk : r < 1 + A * (A * (r - 1 / r)) := by
      have : A * (A * (r - 1 / r)) = 2 / Real.pi * (r - 1 / r) := by rw [← A_sq]; ring
      rw [this]
      have hf : r - 1 / r = (r - 1) * ((r + 1) / r) := by field_simp; ring
      rw [hf]
      have : 1 < 2 / Real.pi * ((r + 1) / r) := by
        rw [div_mul_div_comm, lt_div_iff₀ (by positivity)]
        norm_num at hpi
        nlinarith
      nlinarith
    calc _ < (1 + A * (A * (r - 1 / r))) * Real.exp (-((A * (r - 1 / r)) ^ 2 / 2)) := mul_lt_mul_of_pos_right hk hpos
      _ = Real.exp (-((A * (r - 1 / r)) ^ 2 / 2)) + A * (A * (r - 1 / r)) * Real.exp (-((A * (r - 1 / r)) ^ 2 / 2)) := by ring
      _ ≤ _ := add_le_add hexp he
  · have hl : 5 / 4 < 1 + erf (A * (r - 1 / r) / √2) := by
      have hd2 : 33 / 28 ≤ r - 1 / r := by
        have : 1 / r ≤ 1 / (7 / 4) := one_div_le_one_div_of_le (by norm_num) h.le
        norm_num at this ⊢
        linarith
      have hhalf : 1 / 2 ≤ A * (r - 1 / r) := by
        have := A_lower
        norm_num at this
        nlinarith
      have hm : erf (1 / 2 / √2) ≤ erf (A * (r - 1 / r) / √2) :=
        erf_mono (div_le_div_of_nonneg_right hhalf (Real.sqrt_nonneg _))
      have hs := erf_scaled_lower (y := 1 / 2) (by norm_num)
      have hx : 7 / 8 ≤ Real.exp (-((1 / 2) ^ 2 / 2)) := by
        have := Real.add_one_le_exp (-(((1 : ℝ) / 2) ^ 2 / 2))
        norm_num at this ⊢
        linarith
      have hA := A_lower
      norm_num at hA
      nlinarith
    refine lt_of_le_of_lt ?_ hl
    have hsq : (A * (r - 1 / r)) ^ 2 / 2 = 1 / Real.pi * (r - 1 / r) ^ 2 := by
      rw [mul_pow, A_sq]
      ring
    rw [hsq]
    have hpi' : (0.318 : ℝ) ≤ 1 / Real.pi := by
      rw [le_div_iff₀ Real.pi_pos]
      norm_num at hpi ⊢
      nlinarith
    have hex : 1 + 0.318 * (r - 1 / r) ^ 2 ≤ Real.exp (1 / Real.pi * (r - 1 / r) ^ 2) := by
      have h1 := Real.add_one_le_exp (1 / Real.pi * (r - 1 / r) ^ 2)
      have h2 := mul_le_mul_of_nonneg_right hpi' (sq_nonneg (r - 1 / r))
      linarith
    rw [Real.exp_neg, ← div_eq_mul_inv, div_le_iff₀ (Real.exp_pos _)]
    refine le_trans ?_ (mul_le_mul_of_nonneg_left hex (by norm_num : (0 : ℝ) ≤ 5 / 4))
    have hpoly : 0 ≤ (3975 / 10000 : ℝ) * r ^ 4 - r ^ 3 + 455 / 1000 * r ^ 2 + 3975 / 10000 := by
      obtain ⟨t, ht, rfl⟩ : ∃ t : ℝ, 0 ≤ t ∧ r = 7 / 4 + t := ⟨r - 7 / 4, by linarith, by ring⟩
      ring_nf
      positivity
    have hexpand : (5 / 4 : ℝ) * (1 + 0.318 * (r - 1 / r) ^ 2) - r
        = ((3975 / 10000 : ℝ) * r ^ 4 - r ^ 3 + 455 / 1000 * r ^ 2 + 3975 / 10000) / r ^ 2 := by
      field_simp
      ring
    have : 0 ≤ (5 / 4 : ℝ) * (1 + 0.318 * (r - 1 / r) ^ 2) - r := by
      rw [hexpand]
      positivity
    linarith

/-- The skewed bell curve. -/
noncomputable def bell (s u : ℝ) : ℝ := Real.exp (-(u ^ 2 / 2)) * (1 + erf (s * u / √2))

theorem bell_hasDerivAt (s u : ℝ) :
    HasDerivAt (bell s) (Real.exp (-(u ^ 2 / 2)) * (-u * (1 + erf (s * u / √2)) + s * A * Real.exp (-((s * u) ^ 2 / 2)))) u := by
  have h1 : HasDerivAt (fun u : ℝ => Real.exp (-(u ^ 2 / 2))) (Real.exp (-(u ^ 2 / 2)) * (-u)) u := by
    have := ((hasDerivAt_pow 2 u).div_const 2).fun_neg.exp
    convert this using 1
    simp
  have h2 : HasDerivAt (fun u : ℝ => 1 + erf (s * u / √2)) (2 / √Real.pi * Real.exp (-(s * u / √2) ^ 2) * (s * 1 / √2)) u := by
    have hi : HasDerivAt (fun u : ℝ => s * u / √2) (s * 1 / √2) u := ((hasDerivAt_id u).const_mul s).div_const _
    exact ((hasDerivAt_erf _).comp u hi).const_add 1
  have h := h1.mul h2
  have h3 : (s * u / √2) ^ 2 = (s * u) ^ 2 / 2 := by rw [div_pow, Real.sq_sqrt (by norm_num)]
  rw [h3] at h
  have he : Real.exp (-(u ^ 2 / 2)) * (-u * (1 + erf (s * u / √2)) + s * A * Real.exp (-((s * u) ^ 2 / 2)))
      = Real.exp (-(u ^ 2 / 2)) * -u * (1 + erf (s * u / √2))
        + Real.exp (-(u ^ 2 / 2)) * (2 / √Real.pi * Real.exp (-((s * u) ^ 2 / 2)) * (s * 1 / √2)) := by
    rw [A_eq]
    ring
  rw [he]
  exact h

/-- The mean of the skewed bell curve, in units of its width. -/
noncomputable def bellMean (s : ℝ) : ℝ := A * s / √(1 + s * s)

theorem bell_not_max (s : ℝ) (hs : s ≠ 0) : ¬ IsLocalMax (bell s) (bellMean s) := by
  intro hmax
  have h0 := hmax.hasDerivAt_eq_zero (bell_hasDerivAt s (bellMean s))
  have hr1 : 1 < √(1 + s * s) := by
    rw [Real.lt_sqrt (by norm_num)]
    have : 0 < s * s := mul_self_pos.2 hs
    linarith
  have hrs : √(1 + s * s) ^ 2 = 1 + s * s := Real.sq_sqrt (by linarith [mul_self_nonneg s])
  have hy : s * bellMean s = A * (√(1 + s * s) - 1 / √(1 + s * s)) := by
    unfold bellMean
    generalize √(1 + s * s) = r at *
    have : r ≠ 0 := by linarith
    field_simp
    rw [hrs]
    ring
  have hc := core _ hr1
  rw [hy] at h0
  rcases mul_eq_zero.1 h0 with h | h
  · exact (Real.exp_pos _).ne' h
  · have hA := A_pos
    have hm : bellMean s * √(1 + s * s) = A * s := by
      unfold bellMean
      have : √(1 + s * s) ≠ 0 := by linarith
      field_simp
    generalize √(1 + s * s) = r at *
    generalize Real.exp (-((A * (r - 1 / r)) ^ 2 / 2)) = E at *
    generalize erf (A * (r - 1 / r) / √2) = e at *
    have : A * s * ((1 + e) - r * E) = 0 := by
      have h' : -bellMean s * (1 + e) * r + s * A * E * r = 0 := by
        rw [← add_mul, h, zero_mul]
      have : bellMean s * r * (1 + e) = A * s * (1 + e) := by rw [hm]
      linarith
    rcases mul_eq_zero.1 this with h | h
    · exact (mul_ne_zero hA.ne' hs) h
    · linarith

theorem erf_le_one (x : ℝ) : erf x ≤ 1 := by
  have h := tail_nonneg (x * √2)
  rw [mul_div_cancel_right₀ _ (Real.sqrt_pos.2 (by norm_num : (0 : ℝ) < 2)).ne'] at h
  linarith

end Verif.Plugins
