/-
Properties of the fluctuations in the shipped NEST plugins (C71, C72) and of the positions (C70).
-/
import Verif.Lemmas.SkewMoments

namespace Verif.Plugins
open Verif Randgen MeasureTheory ProbabilityTheory

/-! ### C71: the recombination fluctuation amplitude -/

theorem omegaER_eq (ampl cntr wide skew x : ℝ) (hw : wide ≠ 0) :
    omegaER erf ampl cntr wide skew x = max (ampl * (bell skew ((x - cntr) / wide) / bell skew (bellMean skew))) 0 := by
  have hb : ∀ t : ℝ, Real.exp (-0.5 * (t - cntr) ^ 2 / (wide * wide)) * (1 + erf (skew * (t - cntr) / (wide * √2)))
      = bell skew ((t - cntr) / wide) := by
    intro t
    unfold bell
    congr 2
    · norm_num
      field_simp
    · congr 1
      field_simp
  have hm : (cntr + √(2 / Real.pi) * skew * wide / √(1 + skew * skew) - cntr) / wide = bellMean skew := by
    unfold bellMean A
    field_simp
    ring
  unfold omegaER
  simp only []
  rw [hb, hm]
  congr 1
  rw [mul_assoc, hb, one_div]
  ring

theorem bell_pos (s u : ℝ) (h : 0 ≤ s * u) : 0 < bell s u := by
  unfold bell
  have := erf_nonneg (x := s * u / √2) (by positivity)
  positivity

theorem bellMean_sign (s : ℝ) : 0 ≤ s * bellMean s := by
  unfold bellMean
  have hA := A_pos
  have : s * (A * s / √(1 + s * s)) = A * (s * s) / √(1 + s * s) := by ring
  rw [this]
  have := mul_self_nonneg s
  positivity

/-- C71, a disagreement: the comment says the norm makes sure omega never exceeds the amplitude.  For every skewness but zero it
does, at electron fractions as close as wanted to the point the code takes for the maximum (which is the mean of the curve). -/
theorem C71_exceeds (ampl cntr wide skew : ℝ) (ha : 0 < ampl) (hw : wide ≠ 0) (hs : skew ≠ 0) (ε : ℝ) (hε : 0 < ε) :
    ∃ x, |x - (cntr + √(2 / Real.pi) * skew * wide / √(1 + skew * skew))| < ε ∧ ampl < omegaER erf ampl cntr wide skew x := by
  have hnot := bell_not_max skew hs
  unfold IsLocalMax IsMaxFilter at hnot
  rw [Metric.eventually_nhds_iff] at hnot
  push Not at hnot
  obtain ⟨u, hu, hgt⟩ := hnot (ε / |wide|) (div_pos hε (abs_pos.2 hw))
  refine ⟨cntr + wide * u, ?_, ?_⟩
  · have he : cntr + wide * u - (cntr + √(2 / Real.pi) * skew * wide / √(1 + skew * skew)) = wide * (u - bellMean skew) := by
      unfold bellMean A
      ring
    rw [he, abs_mul]
    rw [Real.dist_eq, lt_div_iff₀ (abs_pos.2 hw)] at hu
    linarith
  · rw [omegaER_eq _ _ _ _ _ hw]
    have hx : (cntr + wide * u - cntr) / wide = u := by field_simp; ring
    rw [hx]
    apply lt_max_of_lt_left
    have hb := bell_pos skew (bellMean skew) (bellMean_sign skew)
    have : 1 < bell skew u / bell skew (bellMean skew) := (one_lt_div hb).2 hgt
    nlinarith

/-- C71: omega equals the amplitude at that point. -/
theorem C71_at_mean (ampl cntr wide skew : ℝ) (ha : 0 ≤ ampl) (hw : wide ≠ 0) :
    omegaER erf ampl cntr wide skew (cntr + √(2 / Real.pi) * skew * wide / √(1 + skew * skew)) = ampl := by
  rw [omegaER_eq _ _ _ _ _ hw]
  have hm : (cntr + √(2 / Real.pi) * skew * wide / √(1 + skew * skew) - cntr) / wide = bellMean skew := by
    unfold bellMean A
    field_simp
    ring
  rw [hm, div_self (bell_pos _ _ (bellMean_sign skew)).ne', mul_one, max_eq_left ha]

/-- C71, the part that holds without skewness: omega never exceeds the amplitude.  Missing: any other skewness, where it is false. -/
theorem C71_symmetric_partial (ampl cntr wide x : ℝ) (ha : 0 ≤ ampl) (hw : wide ≠ 0) : omegaER erf ampl cntr wide 0 x ≤ ampl := by
  rw [omegaER_eq _ _ _ _ _ hw]
  apply max_le _ ha
  have h0 : bell 0 (bellMean 0) = 1 := by simp [bell, bellMean, erf_zero]
  have h1 : bell 0 ((x - cntr) / wide) ≤ 1 := by
    simp only [bell, zero_mul, zero_div, erf_zero, add_zero, mul_one]
    apply Real.exp_le_one_iff.2
    have : 0 ≤ ((x - cntr) / wide) ^ 2 / 2 := by positivity
    linarith
  rw [h0, div_one]
  exact mul_le_of_le_one_right ha h1

/-- C71, what holds for every skewness: omega is not negative and at most `2 exp(1/pi)`, about 2.75, times the amplitude. -/
theorem C71_bound_partial (ampl cntr wide skew x : ℝ) (ha : 0 ≤ ampl) (hw : wide ≠ 0) :
    0 ≤ omegaER erf ampl cntr wide skew x ∧ omegaER erf ampl cntr wide skew x ≤ 2 * Real.exp (1 / Real.pi) * ampl := by
  refine ⟨le_max_right _ _, ?_⟩
  rw [omegaER_eq _ _ _ _ _ hw]
  apply max_le _ (by positivity)
  have hu : bell skew ((x - cntr) / wide) ≤ 2 := by
    unfold bell
    have h1 : Real.exp (-(((x - cntr) / wide) ^ 2 / 2)) ≤ 1 := by
      apply Real.exp_le_one_iff.2
      have : 0 ≤ ((x - cntr) / wide) ^ 2 / 2 := by positivity
      linarith
    have h2 := erf_le_one (skew * ((x - cntr) / wide) / √2)
    have h3 := Real.exp_pos (-(((x - cntr) / wide) ^ 2 / 2))
    nlinarith
  have hl : Real.exp (-(1 / Real.pi)) ≤ bell skew (bellMean skew) := by
    unfold bell
    have h1 := erf_nonneg (x := skew * bellMean skew / √2) (div_nonneg (bellMean_sign skew) (Real.sqrt_nonneg _))
    have h2 : Real.exp (-(1 / Real.pi)) ≤ Real.exp (-(bellMean skew ^ 2 / 2)) := by
      apply Real.exp_le_exp.2
      have hb : bellMean skew ^ 2 ≤ 2 / Real.pi := by
        unfold bellMean
        have hp : 0 < 1 + skew * skew := by have := mul_self_nonneg skew; linarith
        rw [div_pow, Real.sq_sqrt hp.le, mul_pow, A_sq, div_le_iff₀ hp]
        have : 0 ≤ 2 / Real.pi := by positivity
        nlinarith
      have : 2 / Real.pi / 2 = 1 / Real.pi := by ring
      linarith
    have h3 := Real.exp_pos (-(bellMean skew ^ 2 / 2))
    nlinarith
  have hpos := Real.exp_pos (-(1 / Real.pi))
  have : bell skew ((x - cntr) / wide) / bell skew (bellMean skew) ≤ 2 * Real.exp (1 / Real.pi) := by
    rw [div_le_iff₀ (by linarith)]
    have he : Real.exp (1 / Real.pi) * Real.exp (-(1 / Real.pi)) = 1 := by rw [← Real.exp_add]; simp
    have hE := Real.exp_pos (1 / Real.pi)
    have := mul_le_mul_of_nonneg_left hl (by positivity : 0 ≤ 2 * Real.exp (1 / Real.pi))
    have h2 : 2 * Real.exp (1 / Real.pi) * Real.exp (-(1 / Real.pi)) = 2 := by rw [mul_assoc, he, mul_one]
    linarith
  calc _ ≤ ampl * (2 * Real.exp (1 / Real.pi)) := mul_le_mul_of_nonneg_left this ha
    _ = _ := by ring

/-- C71: at every field the amplitude lies between its parameter and the high-field value, so it is not negative. -/
theorem C71_amplitude (a field : ℝ) (hf : 0 ≤ field) : min a 0.086036 ≤ amplER a field ∧ amplER a field ≤ max a 0.086036 := by
  unfold amplER
  have hb : 1 ≤ (1 + (field / 295.2) ^ (251.6 : ℝ)) ^ (0.0069114 : ℝ) := by
    apply Real.one_le_rpow _ (by norm_num)
    have : 0 ≤ (field / 295.2) ^ (251.6 : ℝ) := Real.rpow_nonneg (by positivity) _
    linarith
  generalize (1 + (field / 295.2) ^ (251.6 : ℝ)) ^ (0.0069114 : ℝ) = d at *
  have hd : 0 < d := by linarith
  rcases le_total a 0.086036 with h | h
  · rw [min_eq_left h, max_eq_right h]
    constructor
    · have : a - 0.086036 ≤ (a - 0.086036) / d := by
        rw [le_div_iff₀ hd]
        nlinarith
      linarith
    · have : (a - 0.086036) / d ≤ 0 := div_nonpos_of_nonpos_of_nonneg (by linarith) hd.le
      linarith
  · rw [min_eq_right h, max_eq_left h]
    constructor
    · have : 0 ≤ (a - 0.086036) / d := div_nonneg (by linarith) hd.le
      linarith
    · have : (a - 0.086036) / d ≤ a - 0.086036 := div_le_self (by linarith) hb
      linarith

/-- The disagreement with the parameters shipped for the ER model (parameters/er_nestv2.json, skewness -0.2). -/
example : ∃ x, 0.035 < omegaER erf 0.035 0.46 0.205 (-0.2) x :=
  (C71_exceeds 0.035 0.46 0.205 (-0.2) (by norm_num) (by norm_num) (by norm_num) 1 one_pos).imp fun _ h => h.2

/-! ### C72: the electron number has the intended mean and variance -/

/-- C72: before rounding and clipping the NR electron number has mean `(1 - recombProb) Ni`, as the comment says, and the
variance asked for, whatever the skewness. -/
theorem C72_moments (alpha2 recombProb v : ℝ) (hv : 0 ≤ v) (ni : ℤ) :
    ∃ f : ℝ → ℝ → ℝ, (∀ z0 z1, electronDrawNR z0 z1 alpha2 (.fin recombProb) (.fin v) ni = .fin (f z0 z1))
      ∧ ∫ z0, ∫ z1, f z0 z1 ∂(gaussianReal 0 1) ∂(gaussianReal 0 1) = (1 - recombProb) * ni
      ∧ ∫ z0, ∫ z1, (f z0 z1 - (1 - recombProb) * ni) ^ 2 ∂(gaussianReal 0 1) ∂(gaussianReal 0 1) = v := by
  have hq : 0 < 1 + alpha2 ^ 2 := by positivity
  have hin : 0 < 1 - (2 / Real.pi) * alpha2 ^ 2 / (1 + alpha2 ^ 2) := by
    have h2 : 2 / Real.pi < 1 := by
      rw [div_lt_one Real.pi_pos]
      linarith [Real.pi_gt_three]
    rw [sub_pos, div_lt_one hq]
    have := sq_nonneg alpha2
    nlinarith
  have hw : 0 < √(1 - (2 / Real.pi) * alpha2 ^ 2 / (1 + alpha2 ^ 2)) := Real.sqrt_pos.2 hin
  have hw2 : √(1 - (2 / Real.pi) * alpha2 ^ 2 / (1 + alpha2 ^ 2)) ^ 2 = 1 - (2 / Real.pi) * alpha2 ^ 2 / (1 + alpha2 ^ 2) :=
    Real.sq_sqrt hin.le
  have hD : 0 < √(1 + alpha2 ^ 2) := Real.sqrt_pos.2 hq
  have hD2 : √(1 + alpha2 ^ 2) ^ 2 = 1 + alpha2 ^ 2 := Real.sq_sqrt hq.le
  have hv2 : √v ^ 2 = v := Real.sq_sqrt hv
  have hApi : 2 * (1 / √(2 * Real.pi)) = A := by
    rw [A_eq, sqrt_two_pi]
    have hs2 : √2 ≠ 0 := (Real.sqrt_pos.2 (by norm_num)).ne'
    have hp : √Real.pi ≠ 0 := (Real.sqrt_pos.2 Real.pi_pos).ne'
    field_simp
  have hdraw : ∀ z0 z1, electronDrawNR z0 z1 alpha2 (.fin recombProb) (.fin v) ni
      = .fin ((√v / √(1 - (2 / Real.pi) * alpha2 ^ 2 / (1 + alpha2 ^ 2)) / √(1 + alpha2 ^ 2)) * (alpha2 * |z0| + z1)
        + ((1 - recombProb) * ni
          - √v / √(1 - (2 / Real.pi) * alpha2 ^ 2 / (1 + alpha2 ^ 2)) * (alpha2 / √(1 + alpha2 ^ 2)) * A)) := by
    intro z0 z1
    unfold electronDrawNR skewnormal
    have hx : xsqrt (.fin v) = .fin (√v) := by simp [xsqrt, not_lt.2 hv]
    simp only [hx, XF.fin_div_fin_of_ne _ hw.ne', XF.fin_mul_fin, XF.fin_sub_fin, XF.fin_add_fin]
    congr 1
    rw [← hApi]
    ring
  generalize √(1 - (2 / Real.pi) * alpha2 ^ 2 / (1 + alpha2 ^ 2)) = W at *
  generalize √(1 + alpha2 ^ 2) = D at *
  refine ⟨fun z0 z1 => √v / W / D * (alpha2 * |z0| + z1) + ((1 - recombProb) * ni - √v / W * (alpha2 / D) * A), hdraw, ?_, ?_⟩
  · rw [skew_mean]
    ring
  · have he : ∀ z0 z1 : ℝ, (√v / W / D * (alpha2 * |z0| + z1) + ((1 - recombProb) * ni - √v / W * (alpha2 / D) * A) - (1 - recombProb) * ni) ^ 2
        = (√v / W / D * (alpha2 * (|z0| - A) + z1)) ^ 2 := by
      intro z0 z1
      ring
    simp only [he]
    rw [skew_var, div_pow, div_pow, hv2, hw2, hD2]
    have h1 : 1 + alpha2 ^ 2 ≠ 0 := hq.ne'
    have h2 : (1 - 2 / Real.pi * alpha2 ^ 2 / (1 + alpha2 ^ 2)) * (1 + alpha2 ^ 2) = 1 + alpha2 ^ 2 * (1 - 2 / Real.pi) := by
      field_simp
      ring
    rw [div_div, h2]
    have h3 : 1 + alpha2 ^ 2 * (1 - 2 / Real.pi) ≠ 0 := by
      rw [← h2]
      exact mul_ne_zero hin.ne' h1
    exact div_mul_cancel₀ _ h3

/-- A case of C72: variance four, mean five. -/
example : ((1 : ℝ) - 1 / 2) * ((10 : ℤ) : ℝ) = 5 ∧ (0 : ℝ) ≤ 4 := by norm_num

/-! ### C70: positions -/

/-- C70: simulated positions lie in the cylinder the configuration describes. -/
theorem C70_cylinder (zMin zMax rMax u1 u2 u3 : ℝ) (hz : zMin ≤ zMax) (h1 : 0 ≤ u1 ∧ u1 < 1) (h2 : 0 ≤ u2 ∧ u2 < 1) :
    let p := positionSpectra zMin zMax rMax u1 u2 u3
    zMin ≤ p.2.2 ∧ p.2.2 ≤ zMax ∧ p.1 ^ 2 + p.2.1 ^ 2 ≤ rMax ^ 2 := by
  unfold positionSpectra
  simp only [sub_zero, add_zero]
  refine ⟨le_max_left _ _, max_le hz (by nlinarith [h1.1, h1.2]), ?_⟩
  have hr : 0 ≤ u2 * rMax ^ 2 := mul_nonneg h2.1 (sq_nonneg _)
  rw [max_eq_right hr]
  have hc : ∀ a t : ℝ, (a * Real.cos t) ^ 2 + (a * Real.sin t) ^ 2 = a ^ 2 := by
    intro a t
    have := Real.cos_sq_add_sin_sq t
    nlinarith [this]
  rw [hc, Real.sq_sqrt hr]
  have := sq_nonneg rMax
  nlinarith [h2.2]

/-- C70: the radius is below `ρ` exactly when the draw is below `(ρ / rMax)²`, so with a uniform draw equal areas are hit
equally often. -/
theorem C70_uniform_area (zMin zMax rMax u1 u2 u3 ρ : ℝ) (hr : 0 < rMax) (h2 : 0 ≤ u2) (hρ : 0 ≤ ρ) :
    √((positionSpectra zMin zMax rMax u1 u2 u3).1 ^ 2 + (positionSpectra zMin zMax rMax u1 u2 u3).2.1 ^ 2) ≤ ρ ↔ u2 ≤ (ρ / rMax) ^ 2 := by
  unfold positionSpectra
  simp only [sub_zero, add_zero]
  have hr2 : 0 ≤ u2 * rMax ^ 2 := mul_nonneg h2 (sq_nonneg _)
  rw [max_eq_right hr2]
  have hc : ∀ a t : ℝ, (a * Real.cos t) ^ 2 + (a * Real.sin t) ^ 2 = a ^ 2 := by
    intro a t
    have := Real.cos_sq_add_sin_sq t
    nlinarith [this]
  rw [hc, Real.sq_sqrt hr2, Real.sqrt_le_left hρ, div_pow, le_div_iff₀ (by positivity)]

/-- C70: uniform energies lie between the limits. -/
theorem C70_energy (lower upper u : ℝ) (h : lower ≤ upper) (h0 : 0 ≤ u) (h1 : u < 1) :
    lower ≤ uniformEnergy lower upper u ∧ uniformEnergy lower upper u ≤ upper := by
  unfold uniformEnergy
  exact ⟨le_max_left _ _, max_le h (by nlinarith)⟩

/-- A case of C70: the centre of the volume. -/
example : (positionSpectra (-100) 0 60 (1 / 2) 0 0).2.2 = -50 := by
  unfold positionSpectra
  norm_num

end Verif.Plugins
