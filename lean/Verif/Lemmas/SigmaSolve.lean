/-
Helper lemmas: the two-sided tail of the normal law as a decreasing bijection, and the equations for two-half-normal sigmas.
-/
import Mathlib.Analysis.Calculus.Deriv.MeanValue
import Mathlib.Topology.Order.IntermediateValue
import Mathlib.MeasureTheory.Integral.IntegralEqImproper
import Verif.Lemmas.Erf
import Verif.Lemmas.Omega

namespace Verif.Randgen
open Verif MeasureTheory ProbabilityTheory Filter Topology

/-- The probability that a standard normal value is farther than `y` from zero. -/
noncomputable def tl (y : ℝ) : ℝ := 1 - erf (y / √2)

theorem sqrt2_pos : (0 : ℝ) < √2 := Real.sqrt_pos.2 (by norm_num)

theorem erf_strictMono : StrictMono erf := by
  apply strictMono_of_deriv_pos
  intro x
  rw [(Plugins.hasDerivAt_erf x).deriv]
  have : 0 < √Real.pi := Real.sqrt_pos.2 Real.pi_pos
  positivity

theorem erf_continuous : Continuous erf := continuous_iff_continuousAt.2 (fun x => (Plugins.hasDerivAt_erf x).continuousAt)

theorem tl_zero : tl 0 = 1 := by simp [tl, Plugins.erf_zero]

theorem tl_anti : StrictAnti tl := by
  intro a b h
  have := erf_strictMono (div_lt_div_of_pos_right h sqrt2_pos)
  unfold tl
  linarith

theorem tl_continuous : Continuous tl := by
  unfold tl
  exact continuous_const.sub (erf_continuous.comp (continuous_id.div_const _))

theorem tl_pos (y : ℝ) : 0 < tl y := by
  have h := tl_anti (lt_add_one y)
  have h2 := Plugins.erf_le_one ((y + 1) / √2)
  have : 0 ≤ tl (y + 1) := by unfold tl; linarith
  linarith

theorem tl_le_one {y : ℝ} (h : 0 ≤ y) : tl y ≤ 1 := by
  rw [← tl_zero]
  exact tl_anti.antitone h

theorem tl_ge_one {y : ℝ} (h : y ≤ 0) : 1 ≤ tl y := by
  rw [← tl_zero]
  exact tl_anti.antitone h

theorem tl_tendsto : Tendsto tl atTop (𝓝 0) := by
  have hi : Integrable (gaussianPDFReal 0 1) := integrable_gaussianPDFReal 0 1
  have h := intervalIntegral_tendsto_integral_Ioi (0 : ℝ) hi.integrableOn tendsto_id (f := gaussianPDFReal 0 1) (μ := volume)
  rw [half_integral] at h
  have h2 : Tendsto (fun y : ℝ => 1 - 2 * ∫ x in (0 : ℝ)..y, gaussianPDFReal 0 1 x) atTop (𝓝 (1 - 2 * (1 / 2))) :=
    tendsto_const_nhds.sub (tendsto_const_nhds.mul h)
  have h3 : (1 : ℝ) - 2 * (1 / 2) = 0 := by norm_num
  rw [h3] at h2
  refine h2.congr (fun y => ?_)
  unfold tl
  rw [erf_scaled]

/-- Every number between zero and one is such a probability. -/
theorem tl_surj {v : ℝ} (h0 : 0 < v) (h1 : v < 1) : ∃ y, 0 < y ∧ tl y = v := by
  obtain ⟨Y, hY, hY0⟩ := ((tl_tendsto.eventually (gt_mem_nhds h0)).and (eventually_ge_atTop 0)).exists
  have h := intermediate_value_Icc' hY0 tl_continuous.continuousOn
  obtain ⟨y, hy, hv⟩ := h ⟨hY.le, by rw [tl_zero]; exact h1.le⟩
  refine ⟨y, lt_of_le_of_ne hy.1 ?_, hv⟩
  rintro rfl
  rw [tl_zero] at hv
  linarith

/-- The probability outside one standard deviation. -/
noncomputable def pOut : ℝ := 1 - oneSigma

theorem pOut_eq : pOut = tl 1 := by
  unfold pOut tl
  rw [oneSigma_eq]

theorem pOut_pos : 0 < pOut := by rw [pOut_eq]; exact tl_pos 1

theorem pOut_lt : pOut < 1 := by
  have h := tl_anti (one_pos : (0 : ℝ) < 1)
  rw [tl_zero] at h
  rw [pOut_eq]
  exact h

theorem toSolve_fst (p : ℝ) (e x : ℝ × ℝ) : (toSolve erf p e x).1 = x.1 / (x.1 + x.2) * tl (e.1 / x.1) - p / 2 := rfl

theorem toSolve_snd (p : ℝ) (e x : ℝ × ℝ) : (toSolve erf p e x).2 = x.2 / (x.1 + x.2) * tl (e.2 / x.2) - p / 2 := rfl

theorem toSolve_swap (p : ℝ) (e x : ℝ × ℝ) : toSolve erf p e.swap x.swap = (toSolve erf p e x).swap := by
  unfold toSolve
  simp only [Prod.fst_swap, Prod.snd_swap, Prod.swap_prod_mk, add_comm x.2 x.1]

theorem toSolve_scale (p k : ℝ) (hk : k ≠ 0) (e x : ℝ × ℝ) :
    toSolve erf p (k * e.1, k * e.2) (k * x.1, k * x.2) = toSolve erf p e x := by
  unfold toSolve
  simp only
  rw [← mul_add, mul_div_mul_left _ _ hk, mul_div_mul_left _ _ hk, mul_div_mul_left _ _ hk, mul_div_mul_left _ _ hk]

/-- Values that almost solve the equations are positive. -/
theorem near_root_pos {e x : ℝ × ℝ} {d1 d2 : ℝ} (he1 : 0 ≤ e.1) (he2 : 0 ≤ e.2) (h1 : |(toSolve erf pOut e x).1| ≤ d1) (h2 : |(toSolve erf pOut e x).2| ≤ d2)
    (hd1 : d1 < pOut / 2) (hd2 : d2 < pOut / 2) (hd : d1 + d2 < 1 - pOut) : 0 < x.1 ∧ 0 < x.2 := by
  rw [toSolve_fst] at h1
  rw [toSolve_snd] at h2
  have a1 := tl_pos (e.1 / x.1)
  have a2 := tl_pos (e.2 / x.2)
  obtain ⟨b1, b1'⟩ := abs_le.1 h1
  obtain ⟨b2, b2'⟩ := abs_le.1 h2
  have c1 : 0 < x.1 / (x.1 + x.2) := by
    by_contra hc
    have := mul_nonpos_of_nonpos_of_nonneg (not_lt.1 hc) a1.le
    linarith
  have c2 : 0 < x.2 / (x.1 + x.2) := by
    by_contra hc
    have := mul_nonpos_of_nonpos_of_nonneg (not_lt.1 hc) a2.le
    linarith
  have hs : x.1 + x.2 ≠ 0 := by
    intro h
    rw [h, div_zero] at c1
    exact lt_irrefl _ c1
  have hsum : x.1 / (x.1 + x.2) + x.2 / (x.1 + x.2) = 1 := by rw [← add_div, div_self hs]
  rcases lt_or_gt_of_ne hs with hneg | hpos
  · exfalso
    have hx1 : x.1 < 0 := by
      by_contra hc
      have := div_nonpos_of_nonneg_of_nonpos (not_lt.1 hc) hneg.le
      linarith
    have hx2 : x.2 < 0 := by
      by_contra hc
      have := div_nonpos_of_nonneg_of_nonpos (not_lt.1 hc) hneg.le
      linarith
    have t1 := tl_ge_one (div_nonpos_of_nonneg_of_nonpos he1 hx1.le)
    have t2 := tl_ge_one (div_nonpos_of_nonneg_of_nonpos he2 hx2.le)
    have m1 := mul_le_mul_of_nonneg_left t1 c1.le
    have m2 := mul_le_mul_of_nonneg_left t2 c2.le
    linarith
  · constructor
    · by_contra hc
      have := div_nonpos_of_nonpos_of_nonneg (not_lt.1 hc) hpos.le
      linarith
    · by_contra hc
      have := div_nonpos_of_nonpos_of_nonneg (not_lt.1 hc) hpos.le
      linarith

theorem root_pos {e x : ℝ × ℝ} (he1 : 0 ≤ e.1) (he2 : 0 ≤ e.2) (h : toSolve erf pOut e x = (0, 0)) : 0 < x.1 ∧ 0 < x.2 := by
  have := pOut_pos
  have := pOut_lt
  refine near_root_pos (d1 := 0) (d2 := 0) he1 he2 ?_ ?_ (by linarith) (by linarith) (by linarith)
  · rw [h]; simp
  · rw [h]; simp

/-- The equations in the share `x.1 / (x.1 + x.2)`. -/
theorem root_iff {e x : ℝ × ℝ} (h1 : 0 < x.1) (h2 : 0 < x.2) :
    toSolve erf pOut e x = (0, 0) ↔ x.1 * tl (e.1 / x.1) = pOut / 2 * (x.1 + x.2) ∧ x.2 * tl (e.2 / x.2) = pOut / 2 * (x.1 + x.2) := by
  have hs : 0 < x.1 + x.2 := add_pos h1 h2
  rw [Prod.ext_iff, toSolve_fst, toSolve_snd, sub_eq_zero, sub_eq_zero, div_mul_eq_mul_div, div_mul_eq_mul_div, div_eq_iff hs.ne', div_eq_iff hs.ne']

theorem exists_of_fst_pos (a b : ℝ) (ha : 0 < a) (hb : 0 ≤ b) : ∃ x : ℝ × ℝ, 0 < x.1 ∧ 0 < x.2 ∧ toSolve erf pOut (a, b) x = (0, 0) := by
  have p0 := pOut_pos
  have p1 := pOut_lt
  generalize hp : pOut = p at p0 p1
  -- the second sigma that the first equation gives
  let φ : ℝ → ℝ := fun s => s * (2 * tl (a / s) / p - 1)
  let H : ℝ → ℝ := fun s => φ s * tl (b / φ s) - p / 2 * (s + φ s)
  have hφ : ∀ s, s + φ s = s * (2 * tl (a / s) / p) := fun s => by simp only [φ]; ring
  -- a first sigma so small that the second equation fails on one side
  obtain ⟨y, hy0, hy⟩ := tl_surj (v := p / (2 - p / 2)) (by apply div_pos p0; linarith) (by rw [div_lt_one (by linarith)]; linarith)
  have hs0 : 0 < a / y := div_pos ha hy0
  have hback : a / (a / y) = y := by field_simp
  have hφ0 : ∀ s, a / y ≤ s → 0 < s ∧ 0 < φ s := by
    intro s hs
    have hsp : 0 < s := lt_of_lt_of_le hs0 hs
    refine ⟨hsp, mul_pos hsp ?_⟩
    have h1 : a / s ≤ y := by
      rw [div_le_iff₀ hsp]
      rw [div_le_iff₀ hy0] at hs
      linarith
    have h2 : p / (2 - p / 2) ≤ tl (a / s) := by rw [← hy]; exact tl_anti.antitone h1
    have h3 : p / 2 < p / (2 - p / 2) := by
      apply div_lt_div_of_pos_left p0 <;> linarith
    have : 1 < 2 * tl (a / s) / p := by
      rw [one_lt_div p0]
      linarith
    linarith
  have hlow : H (a / y) ≤ 0 := by
    obtain ⟨g1, g2⟩ := hφ0 _ le_rfl
    have t1 : tl (b / φ (a / y)) ≤ 1 := tl_le_one (div_nonneg hb g2.le)
    have e1 : a / y + φ (a / y) = a / y * (2 / (2 - p / 2)) := by
      rw [hφ, hback, hy]
      have : (2 - p / 2) ≠ 0 := by linarith
      field_simp
    have e2 : φ (a / y) = a / y * (2 / (2 - p / 2) - 1) := by linarith [e1]
    have m := mul_le_mul_of_nonneg_left t1 g2.le
    have : H (a / y) ≤ φ (a / y) - p / 2 * (a / y + φ (a / y)) := by simp only [H]; linarith
    refine le_trans this ?_
    rw [e1, e2]
    have h2 : (0 : ℝ) < 2 - p / 2 := by linarith
    have : a / y * (2 / (2 - p / 2) - 1) - p / 2 * (a / y * (2 / (2 - p / 2))) = a / y * ((p / 2 - p) / (2 - p / 2)) := by
      have h3 : (2 : ℝ) / (2 - p / 2) - 1 - p / 2 * (2 / (2 - p / 2)) = (p / 2 - p) / (2 - p / 2) := by
        rw [eq_div_iff h2.ne', sub_mul, sub_mul, mul_assoc, div_mul_cancel₀ _ h2.ne']
        ring
      rw [← h3]
      ring
    rw [this]
    exact mul_nonpos_of_nonneg_of_nonpos hs0.le (div_nonpos_of_nonpos_of_nonneg (by linarith) h2.le)
  -- far out the second equation fails on the other side
  have hfar : ∀ᶠ s in atTop, 0 < H s := by
    have ht1 : Tendsto (fun s : ℝ => tl (a / s)) atTop (𝓝 1) := by
      have : Tendsto (fun s : ℝ => a / s) atTop (𝓝 0) := tendsto_const_nhds.div_atTop tendsto_id
      have h := (tl_continuous.tendsto 0).comp this
      rw [tl_zero] at h
      exact h
    have hφinf : Tendsto φ atTop atTop := by
      have h : Tendsto (fun s : ℝ => 2 * tl (a / s) / p - 1) atTop (𝓝 (2 * 1 / p - 1)) :=
        ((tendsto_const_nhds.mul ht1).div_const p).sub_const 1
      have hpos : 0 < 2 * 1 / p - 1 := by
        have : 1 < 2 * 1 / p := by rw [one_lt_div p0]; linarith
        linarith
      exact tendsto_id.atTop_mul_pos hpos h
    have ht2 : Tendsto (fun s : ℝ => tl (b / φ s)) atTop (𝓝 1) := by
      have : Tendsto (fun s : ℝ => b / φ s) atTop (𝓝 0) := tendsto_const_nhds.div_atTop hφinf
      have h := (tl_continuous.tendsto 0).comp this
      rw [tl_zero] at h
      exact h
    have h : Tendsto (fun s : ℝ => (2 * tl (a / s) / p - 1) * tl (b / φ s) - p / 2 * (2 * tl (a / s) / p)) atTop
        (𝓝 ((2 * 1 / p - 1) * 1 - p / 2 * (2 * 1 / p))) :=
      ((((tendsto_const_nhds.mul ht1).div_const p).sub_const 1).mul ht2).sub (tendsto_const_nhds.mul ((tendsto_const_nhds.mul ht1).div_const p))
    have hpos : 0 < (2 * 1 / p - 1) * 1 - p / 2 * (2 * 1 / p) := by
      have e : (2 * 1 / p - 1) * 1 - p / 2 * (2 * 1 / p) = (2 - p - p) / p := by
        field_simp
      rw [e]
      exact div_pos (by linarith) p0
    filter_upwards [h.eventually (lt_mem_nhds hpos), eventually_gt_atTop 0] with s hs hs0
    have e : H s = s * ((2 * tl (a / s) / p - 1) * tl (b / φ s) - p / 2 * (2 * tl (a / s) / p)) := by
      simp only [H]
      rw [hφ]
      have : φ s = s * (2 * tl (a / s) / p - 1) := rfl
      generalize tl (b / φ s) = t
      rw [this]
      ring
    rw [e]
    exact mul_pos hs0 hs
  obtain ⟨S, hS, hS'⟩ := (hfar.and (eventually_ge_atTop (a / y))).exists
  have hcont : ContinuousOn H (Set.Icc (a / y) S) := by
    have hc1 : ContinuousOn (fun s : ℝ => tl (a / s)) (Set.Icc (a / y) S) :=
      tl_continuous.comp_continuousOn (continuousOn_const.div continuousOn_id (fun s hs => (hφ0 s hs.1).1.ne'))
    have hc2 : ContinuousOn φ (Set.Icc (a / y) S) :=
      continuousOn_id.mul (((continuousOn_const.mul hc1).div_const p).sub continuousOn_const)
    have hc3 : ContinuousOn (fun s : ℝ => tl (b / φ s)) (Set.Icc (a / y) S) :=
      tl_continuous.comp_continuousOn (continuousOn_const.div hc2 (fun s hs => (hφ0 s hs.1).2.ne'))
    exact (hc2.mul hc3).sub (continuousOn_const.mul (continuousOn_id.add hc2))
  obtain ⟨s, hs, h0⟩ := intermediate_value_Icc hS' hcont ⟨hlow, hS.le⟩
  obtain ⟨g1, g2⟩ := hφ0 s hs.1
  refine ⟨(s, φ s), g1, g2, ?_⟩
  rw [← hp, root_iff g1 g2, hp]
  constructor
  · simp only
    rw [hφ]
    field_simp
  · simp only [H] at h0
    simp only
    linarith

theorem exists_root (e : ℝ × ℝ) (h1 : 0 ≤ e.1) (h2 : 0 ≤ e.2) (h : 0 < e.1 + e.2) : ∃ x : ℝ × ℝ, toSolve erf pOut e x = (0, 0) := by
  rcases lt_or_eq_of_le h1 with h1' | h1'
  · obtain ⟨x, -, -, hx⟩ := exists_of_fst_pos e.1 e.2 h1' h2
    exact ⟨x, hx⟩
  · have : 0 < e.2 := by linarith
    obtain ⟨x, -, -, hx⟩ := exists_of_fst_pos e.2 e.1 this h1
    refine ⟨x.swap, ?_⟩
    have := toSolve_swap pOut (e.2, e.1) x
    rw [hx] at this
    simpa using this

/-- Of two solutions the one with the larger first share is not another one. -/
theorem unique_of_le {e x y : ℝ × ℝ} (h1 : 0 ≤ e.1) (h2 : 0 ≤ e.2) (hx : toSolve erf pOut e x = (0, 0)) (hy : toSolve erf pOut e y = (0, 0))
    (hle : x.1 / (x.1 + x.2) ≤ y.1 / (y.1 + y.2)) : x = y := by
  obtain ⟨px1, px2⟩ := root_pos h1 h2 hx
  obtain ⟨py1, py2⟩ := root_pos h1 h2 hy
  have sx : 0 < x.1 + x.2 := add_pos px1 px2
  have sy : 0 < y.1 + y.2 := add_pos py1 py2
  have p0 := pOut_pos
  have p1 := pOut_lt
  have ux : x.1 / (x.1 + x.2) + x.2 / (x.1 + x.2) = 1 := by rw [← add_div, div_self sx.ne']
  have uy : y.1 / (y.1 + y.2) + y.2 / (y.1 + y.2) = 1 := by rw [← add_div, div_self sy.ne']
  have ex1 := congrArg Prod.fst hx
  have ex2 := congrArg Prod.snd hx
  have ey1 := congrArg Prod.fst hy
  have ey2 := congrArg Prod.snd hy
  rw [toSolve_fst] at ex1 ey1
  rw [toSolve_snd] at ex2 ey2
  have r0 : 0 < x.1 / (x.1 + x.2) := div_pos px1 sx
  have r1 : 0 < x.2 / (x.1 + x.2) := div_pos px2 sx
  have q0 : 0 < y.1 / (y.1 + y.2) := div_pos py1 sy
  have q1 : 0 < y.2 / (y.1 + y.2) := div_pos py2 sy
  have key : x.1 / (x.1 + x.2) = y.1 / (y.1 + y.2) := by
    by_contra hne
    have hlt := lt_of_le_of_ne hle hne
    have t1 : tl (e.1 / y.1) < tl (e.1 / x.1) := by
      by_contra hc
      have := mul_lt_mul_of_pos_right hlt (tl_pos (e.1 / x.1))
      have := mul_le_mul_of_nonneg_left (not_lt.1 hc) q0.le
      linarith
    have t2 : tl (e.2 / x.2) < tl (e.2 / y.2) := by
      by_contra hc
      have := mul_lt_mul_of_pos_right (show y.2 / (y.1 + y.2) < x.2 / (x.1 + x.2) by linarith) (tl_pos (e.2 / y.2))
      have := mul_le_mul_of_nonneg_left (not_lt.1 hc) r1.le
      linarith
    have d1 : e.1 / x.1 < e.1 / y.1 := tl_anti.lt_iff_gt.1 t1
    have d2 : e.2 / y.2 < e.2 / x.2 := tl_anti.lt_iff_gt.1 t2
    have l1 : y.1 < x.1 := by
      by_contra hc
      exact absurd d1 (not_lt.2 (div_le_div_of_nonneg_left h1 px1 (not_lt.1 hc)))
    have l2 : x.2 < y.2 := by
      by_contra hc
      exact absurd d2 (not_lt.2 (div_le_div_of_nonneg_left h2 py2 (not_lt.1 hc)))
    rw [div_lt_div_iff₀ sx sy] at hlt
    nlinarith
  have key2 : x.2 / (x.1 + x.2) = y.2 / (y.1 + y.2) := by linarith
  have t1 : tl (e.1 / x.1) = tl (e.1 / y.1) := by
    rw [key] at ex1
    exact mul_left_cancel₀ q0.ne' (by linarith)
  have t2 : tl (e.2 / x.2) = tl (e.2 / y.2) := by
    rw [key2] at ex2
    exact mul_left_cancel₀ q1.ne' (by linarith)
  have d1 := tl_anti.injective t1
  have d2 := tl_anti.injective t2
  have hcross : x.1 * y.2 = y.1 * x.2 := by
    rw [div_eq_div_iff sx.ne' sy.ne'] at key
    linarith
  rw [div_eq_div_iff px1.ne' py1.ne'] at d1
  rw [div_eq_div_iff px2.ne' py2.ne'] at d2
  have hpos : 0 < e.1 + e.2 := by
    by_contra hc
    have z1 : e.1 = 0 := by linarith
    have z2 : e.2 = 0 := by linarith
    rw [z1, zero_div, tl_zero] at ex1
    rw [z2, zero_div, tl_zero] at ex2
    simp only at ex1 ex2
    linarith
  rcases lt_or_eq_of_le h1 with h1' | h1'
  · have : x.1 = y.1 := mul_left_cancel₀ h1'.ne' (by linarith)
    refine Prod.ext this ?_
    rw [this] at hcross
    exact (mul_left_cancel₀ py1.ne' hcross).symm
  · have : x.2 = y.2 := mul_left_cancel₀ (by linarith : (0 : ℝ) < e.2).ne' (by linarith)
    refine Prod.ext ?_ this
    rw [this] at hcross
    exact mul_right_cancel₀ py2.ne' hcross

theorem root_unique {e x y : ℝ × ℝ} (h1 : 0 ≤ e.1) (h2 : 0 ≤ e.2) (hx : toSolve erf pOut e x = (0, 0)) (hy : toSolve erf pOut e y = (0, 0)) : x = y := by
  rcases le_total (x.1 / (x.1 + x.2)) (y.1 / (y.1 + y.2)) with h | h
  · exact unique_of_le h1 h2 hx hy h
  · exact (unique_of_le h1 h2 hy hx h).symm

/-- No sigmas have both percentiles at the centre. -/
theorem no_root_zero (x : ℝ × ℝ) : toSolve erf pOut (0, 0) x ≠ (0, 0) := by
  intro h
  obtain ⟨p1, p2⟩ := root_pos (e := (0, 0)) le_rfl le_rfl h
  have := (root_iff p1 p2).1 h
  simp only [zero_div, tl_zero, mul_one] at this
  have := pOut_lt
  nlinarith

/-- Sigmas are ordered like the errors and lie between them. -/
theorem root_between {e x : ℝ × ℝ} (h1 : 0 ≤ e.1) (hlt : e.1 < e.2) (hx : toSolve erf pOut e x = (0, 0)) :
    e.1 < x.1 ∧ x.1 < x.2 ∧ x.2 < e.2 := by
  have h2 : 0 ≤ e.2 := h1.trans hlt.le
  obtain ⟨p1, p2⟩ := root_pos h1 h2 hx
  obtain ⟨r1, r2⟩ := (root_iff p1 p2).1 hx
  have p0 := pOut_pos
  have one : ∀ y, tl y < pOut ↔ 1 < y := fun y => by rw [pOut_eq]; exact tl_anti.lt_iff_gt
  have one' : ∀ y, tl y ≤ pOut ↔ 1 ≤ y := fun y => by rw [pOut_eq]; exact tl_anti.le_iff_ge
  have one2 : ∀ y, pOut < tl y ↔ y < 1 := fun y => by rw [pOut_eq]; exact tl_anti.lt_iff_gt
  have one2' : ∀ y, pOut ≤ tl y ↔ y ≤ 1 := fun y => by rw [pOut_eq]; exact tl_anti.le_iff_ge
  have hord : x.1 < x.2 := by
    by_contra hc
    have hc := not_lt.1 hc
    have a1 : tl (e.1 / x.1) ≤ pOut := by
      by_contra hh
      nlinarith [not_le.1 hh]
    have a2 : pOut ≤ tl (e.2 / x.2) := by
      by_contra hh
      nlinarith [not_le.1 hh]
    have b1 := (one' _).1 a1
    have b2 := (one2' _).1 a2
    rw [le_div_iff₀ p1] at b1
    rw [div_le_iff₀ p2] at b2
    linarith
  have a1 : pOut < tl (e.1 / x.1) := by
    by_contra hh
    nlinarith [not_lt.1 hh]
  have a2 : tl (e.2 / x.2) < pOut := by
    by_contra hh
    nlinarith [not_lt.1 hh]
  have b1 := (one2 _).1 a1
  have b2 := (one _).1 a2
  rw [div_lt_iff₀ p1] at b1
  rw [lt_div_iff₀ p2] at b2
  exact ⟨by linarith, hord, by linarith⟩

/-- The smaller sigma is at least a fixed share of the larger one. -/
theorem root_share {e x : ℝ × ℝ} (h1 : 0 ≤ e.1) (h2 : 0 ≤ e.2) (hx : toSolve erf pOut e x = (0, 0)) :
    pOut / 2 * (x.1 + x.2) ≤ x.1 ∧ pOut / 2 * (x.1 + x.2) ≤ x.2 := by
  obtain ⟨p1, p2⟩ := root_pos h1 h2 hx
  obtain ⟨r1, r2⟩ := (root_iff p1 p2).1 hx
  have t1 := tl_le_one (div_nonneg h1 p1.le)
  have t2 := tl_le_one (div_nonneg h2 p2.le)
  constructor <;> nlinarith

end Verif.Randgen
