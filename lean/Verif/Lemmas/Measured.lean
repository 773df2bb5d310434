/-
Helper lemmas for C149.
-/
import Verif.Spec.Measured
import Verif.Props.Likelihood
import Verif.Lemmas.TwoHalfNorm
import Verif.Lemmas.BinomialSpread

namespace Verif.Llh
open Verif MeasureTheory ProbabilityTheory Randgen

theorem log_twoHalfDensity (mu sp sn x : ℝ) (hp : 0 < sp) (hn : 0 < sn) :
    Real.log (twoHalfDensity mu sp sn x) = ell mu sp sn x := by
  have hpi : 0 < √(2 * Real.pi) := Real.sqrt_pos.2 (by positivity)
  have hc : 0 < 2 / ((sp + sn) * √(2 * Real.pi)) := by positivity
  unfold twoHalfDensity ell
  rw [Real.log_mul hc.ne' (Real.exp_ne_zero _), Real.log_exp, add_comm, ← div_div 2]
  congr 1
  split
  · rw [div_pow]; ring
  · rw [div_pow]; ring

theorem norm_ell (mu sp x : ℝ) (hp : 0 < sp) :
    Real.log (1 / (sp * √(2 * Real.pi)) * Real.exp (-(x - mu) ^ 2 / (2 * sp ^ 2))) = ell mu sp sp x := by
  have hpi : 0 < √(2 * Real.pi) := Real.sqrt_pos.2 (by positivity)
  rw [← log_twoHalfDensity mu sp sp x hp hp]
  congr 1
  unfold twoHalfDensity
  rw [ite_self]
  congr 1
  · field_simp
    ring
  · congr 1
    rw [div_pow]
    ring

/-- The log density is a constant less half the squared distance in units of the error. -/
theorem ell_pull (m : Measured) (y : ℝ) :
    ell m.mu m.sp m.sn y = Real.log (2 / (m.sp + m.sn) / √(2 * Real.pi)) - m.pull y ^ 2 / 2 := by
  unfold ell Measured.pull
  split
  · rw [div_pow]; ring
  · rw [div_pow]; ring

theorem lit_value {K : Type} {al : PyDict String String} (hal : PlainAliases al) {shape : Shape} {s : LitState K} {key k' : K}
    {batch : Int} {p : PyDict String XF} {v : XF} (pts : List (Measured × ℝ)) (hd : Describes shape (pts.map Prod.fst))
    (hs : Simulates al s p key k' (pts.map Prod.snd) (pts.map (fun q => q.1.eff)))
    (h : litLogLikelihood al shape s key batch p = .ok (k', v)) :
    (∀ q ∈ pts, 0 < q.1.sp ∧ 0 < q.1.sn) ∧
      v = .fin (pts.map (fun q => q.1.eff * ell q.1.mu q.1.sp q.1.sn q.2)).sum := by
  obtain ⟨n, c, e, hc, hrun⟩ := hs
  rcases hd with rfl | ⟨rfl, hpos⟩
  · have hpos : ∀ q ∈ pts, 0 < q.1.sp ∧ 0 < q.1.sn := by
      obtain ⟨n', c', e', y', f', l, m, h1, h2, h3, -⟩ := litLogLikelihood_ok hal h
      simp only [logpdf] at h3
      split at h3
      · rename_i hp
        intro q hq
        exact ⟨hp.1 _ (List.mem_map.2 ⟨q.1, List.mem_map.2 ⟨q, hq, rfl⟩, rfl⟩),
          hp.2 _ (List.mem_map.2 ⟨q.1, List.mem_map.2 ⟨q, hq, rfl⟩, rfl⟩)⟩
      · cases h3
    refine ⟨hpos, ?_⟩
    have hv := C39_values_twohalfnorm al hal s key k' batch p v n c e
      (pts.map (fun q => (q.1.mu, q.1.sp, q.1.sn, q.2, q.1.eff))) hc
      (by simpa only [List.map_map, Function.comp_def] using hrun)
      (by simpa only [List.map_map, Function.comp_def] using h)
    rw [hv, List.map_map]
    congr 2
    refine List.map_congr_left (fun q hq => ?_)
    simp only [Function.comp_def]
    rw [log_twoHalfDensity _ _ _ _ (hpos q hq).1 (hpos q hq).2]
  · have hpos' : ∀ q ∈ pts, 0 < q.1.sp ∧ q.1.sn = q.1.sp := fun q hq => hpos q.1 (List.mem_map.2 ⟨q, hq, rfl⟩)
    refine ⟨fun q hq => ⟨(hpos' q hq).1, by rw [(hpos' q hq).2]; exact (hpos' q hq).1⟩, ?_⟩
    have hv := C39_values_norm al hal s key k' batch p v n c e
      (pts.map (fun q => (q.1.mu, q.1.sp, q.2, q.1.eff)))
      (by intro q hq; obtain ⟨r, hr, rfl⟩ := List.mem_map.1 hq; exact (hpos' r hr).1) hc
      (by simpa only [List.map_map, Function.comp_def] using hrun)
      (by simpa only [List.map_map, Function.comp_def] using h)
    rw [hv, List.map_map]
    congr 2
    refine List.map_congr_left (fun q hq => ?_)
    simp only [Function.comp_def]
    rw [norm_ell _ _ _ (hpos' q hq).1, (hpos' q hq).2]

/-- The law of the deviations of a two-half-normal measurement. -/
noncomputable def devLaw (sp sn : ℝ) : Measure ℝ := volume.withDensity (fun x => ENNReal.ofReal (Real.exp (ell 0 sp sn x)))

theorem devLaw_prob {sp sn : ℝ} (hp : 0 < sp) (hn : 0 < sn) : IsProbabilityMeasure (devLaw sp sn) := by
  unfold devLaw
  rw [← thn_law 0 sp sn hp hn]
  exact Measure.isProbabilityMeasure_map (thnValue_measurable 0 sp sn).aemeasurable

theorem exp_ell_lintegral {sp sn : ℝ} (hp : 0 < sp) (hn : 0 < sn) :
    ∫⁻ x, ENNReal.ofReal (Real.exp (ell 0 sp sn x)) = 1 := by
  have h := (devLaw_prob hp hn).measure_univ
  unfold devLaw at h
  rwa [withDensity_apply _ MeasurableSet.univ, Measure.restrict_univ] at h

theorem devLaw_sq {sp sn : ℝ} (hp : 0 < sp) (hn : 0 < sn) : Integrable (fun x : ℝ => x ^ 2) (devLaw sp sn) := by
  unfold devLaw
  rw [← thn_law 0 sp sn hp hn, integrable_map_measure (by fun_prop) (thnValue_measurable 0 sp sn).aemeasurable]
  have hz : Integrable (fun w : ℝ × ℝ => (max sp sn) ^ 2 * w.2 ^ 2) (unif.prod G) :=
    ((N_int_pow 2).comp_snd unif).const_mul _
  refine hz.mono' ?_ (Filter.Eventually.of_forall (fun w => ?_))
  · exact ((measurable_id.pow_const 2).comp (thnValue_measurable 0 sp sn)).aestronglyMeasurable
  · simp only [Function.comp_def, Real.norm_eq_abs, abs_pow, sq_abs]
    by_cases hu : w.1 < sp / (sp + sn)
    · rw [thnValue_pos hu, zero_add, mul_pow, sq_abs, mul_comm]
      exact mul_le_mul_of_nonneg_right (pow_le_pow_left₀ hp.le (le_max_left _ _) 2) (sq_nonneg _)
    · rw [thnValue_neg hu, zero_add, mul_pow, sq_abs, mul_comm, neg_sq]
      exact mul_le_mul_of_nonneg_right (pow_le_pow_left₀ hn.le (le_max_right _ _) 2) (sq_nonneg _)

theorem ell_shift_integrable {sp sn : ℝ} (hp : 0 < sp) (hn : 0 < sn) (d : ℝ) :
    Integrable (fun x => ell 0 sp sn (x + d)) (devLaw sp sn) := by
  have := devLaw_prob hp hn
  have hb : Integrable (fun x : ℝ => (1 / sp ^ 2 + 1 / sn ^ 2) * (x ^ 2 + d ^ 2) + |Real.log (2 / (sp + sn) / √(2 * Real.pi))|)
      (devLaw sp sn) :=
    (((devLaw_sq hp hn).add (integrable_const _)).const_mul _).add (integrable_const _)
  refine hb.mono' ((ell_measurable 0 sp sn).comp (measurable_id.add_const d)).aestronglyMeasurable
    (Filter.Eventually.of_forall (fun x => ?_))
  rw [Real.norm_eq_abs]
  unfold ell
  refine (abs_add_le _ _).trans (add_le_add ?_ le_rfl)
  have hx : (x + d) ^ 2 / 2 ≤ x ^ 2 + d ^ 2 := by nlinarith [sq_nonneg (x - d)]
  have h1 : 0 < 1 / sp ^ 2 := by positivity
  have h2 : 0 < 1 / sn ^ 2 := by positivity
  have hnn : 0 ≤ x ^ 2 + d ^ 2 := by positivity
  split
  · have e : -(x + d - 0) ^ 2 / sn ^ 2 / 2 = -(1 / sn ^ 2 * ((x + d) ^ 2 / 2)) := by ring
    rw [e, abs_neg, abs_of_nonneg (by positivity)]
    nlinarith [mul_le_mul_of_nonneg_left hx h2.le, mul_nonneg h1.le hnn]
  · have e : -(x + d - 0) ^ 2 / sp ^ 2 / 2 = -(1 / sp ^ 2 * ((x + d) ^ 2 / 2)) := by ring
    rw [e, abs_neg, abs_of_nonneg (by positivity)]
    nlinarith [mul_le_mul_of_nonneg_left hx h1.le, mul_nonneg h2.le hnn]

theorem devLaw_open {sp sn : ℝ} : (devLaw sp sn).IsOpenPosMeasure := by
  have h : volume ≪ devLaw sp sn := by
    refine withDensity_absolutelyContinuous' ?_ ?_
    · exact ((ell_measurable 0 sp sn).exp.ennreal_ofReal).aemeasurable
    · exact Filter.Eventually.of_forall (fun x => by simpa using Real.exp_pos _)
  exact h.isOpenPosMeasure

/-- Gibbs: on average over the deviations every shifted log density is smaller. -/
theorem ell_gibbs {sp sn : ℝ} (hp : 0 < sp) (hn : 0 < sn) {d : ℝ} (hd : d ≠ 0) :
    ∫ x, ell 0 sp sn (x + d) ∂(devLaw sp sn) < ∫ x, ell 0 sp sn x ∂(devLaw sp sn) := by
  have := devLaw_prob hp hn
  have hi0 : Integrable (fun x => ell 0 sp sn x) (devLaw sp sn) := by simpa using ell_shift_integrable hp hn 0
  have hid := ell_shift_integrable hp hn d
  have hm : Measurable (fun x => ell 0 sp sn x) := ell_measurable 0 sp sn
  have hme : Measurable (fun x => ENNReal.ofReal (Real.exp (ell 0 sp sn x))) := by fun_prop
  have hr : ∫⁻ x, ENNReal.ofReal (Real.exp (ell 0 sp sn (x + d) - ell 0 sp sn x)) ∂(devLaw sp sn) = 1 := by
    unfold devLaw
    rw [lintegral_withDensity_eq_lintegral_mul _ hme (by fun_prop)]
    have : ∀ x, ((fun x => ENNReal.ofReal (Real.exp (ell 0 sp sn x))) *
        fun x => ENNReal.ofReal (Real.exp (ell 0 sp sn (x + d) - ell 0 sp sn x))) x =
        ENNReal.ofReal (Real.exp (ell 0 sp sn (x + d))) := by
      intro x
      simp only [Pi.mul_apply]
      rw [← ENNReal.ofReal_mul (Real.exp_pos _).le, ← Real.exp_add]
      congr 2
      ring
    simp only [this]
    rw [lintegral_add_right_eq_self (fun x => ENNReal.ofReal (Real.exp (ell 0 sp sn x))) d]
    exact exp_ell_lintegral hp hn
  have hri : Integrable (fun x => Real.exp (ell 0 sp sn (x + d) - ell 0 sp sn x)) (devLaw sp sn) := by
    refine ⟨by fun_prop, ?_⟩
    rw [hasFiniteIntegral_iff_ofReal (Filter.Eventually.of_forall (fun x => (Real.exp_pos _).le)), hr]
    exact ENNReal.one_lt_top
  have hre : ∫ x, Real.exp (ell 0 sp sn (x + d) - ell 0 sp sn x) ∂(devLaw sp sn) = 1 := by
    rw [integral_eq_lintegral_of_nonneg_ae (Filter.Eventually.of_forall (fun x => (Real.exp_pos _).le)) hri.1, hr]
    rfl
  have hopen := devLaw_open (sp := sp) (sn := sn)
  have hcont : Continuous (fun x => Real.exp (ell 0 sp sn (x + d) - ell 0 sp sn x) - 1 - (ell 0 sp sn (x + d) - ell 0 sp sn x)) := by
    have h := ell_continuous 0 sp sn
    have h2 : Continuous (fun x => ell 0 sp sn (x + d)) := h.comp (continuous_add_right d)
    fun_prop
  have hpos : 0 < ∫ x, (Real.exp (ell 0 sp sn (x + d) - ell 0 sp sn x) - 1 - (ell 0 sp sn (x + d) - ell 0 sp sn x)) ∂(devLaw sp sn) := by
    refine integral_pos_of_integrable_nonneg_nonzero (x := 0) hcont ((hri.sub (integrable_const _)).sub (hid.sub hi0)) (fun x => ?_) ?_
    · have := Real.add_one_le_exp (ell 0 sp sn (x + d) - ell 0 sp sn x)
      simp only [Pi.zero_apply]
      linarith
    · have hlt := ell_lt_max 0 sp sn d hp hn hd
      have := Real.add_one_lt_exp (x := ell 0 sp sn (0 + d) - ell 0 sp sn 0) (by rw [zero_add]; linarith)
      intro h0
      linarith
  have e := integral_sub (hri.sub (integrable_const (1 : ℝ))) (hid.sub hi0)
  simp only [Pi.sub_apply] at e
  rw [e, integral_sub hri (integrable_const _), integral_sub hid hi0, hre] at hpos
  simp at hpos
  linarith

theorem ell_centre (mu sp sn y : ℝ) : ell mu sp sn y = ell 0 sp sn (y - mu) := by
  unfold ell
  simp only [sub_zero, sub_neg]

theorem exp_ell (sp sn x : ℝ) (hp : 0 < sp) (hn : 0 < sn) : twoHalfDensity 0 sp sn x = Real.exp (ell 0 sp sn x) := by
  rw [← log_twoHalfDensity 0 sp sn x hp hn, Real.exp_log]
  have hpi : 0 < √(2 * Real.pi) := Real.sqrt_pos.2 (by positivity)
  unfold twoHalfDensity
  positivity

theorem trial_mean {Ω : Type} [MeasurableSpace Ω] {P : Measure Ω} (t : Trial Ω) (ht : t.Honest P) (hp : 0 < t.sp) (hn : 0 < t.sn)
    (y : ℝ) : Integrable (fun ω => ell (t.centre ω) t.sp t.sn y) P ∧
      ∫ ω, ell (t.centre ω) t.sp t.sn y ∂P = ∫ x, ell 0 t.sp t.sn (x + (y - t.truth)) ∂(devLaw t.sp t.sn) := by
  obtain ⟨hm, hl⟩ := ht
  simp only [exp_ell _ _ _ hp hn] at hl
  have hX : Measurable (fun ω => t.truth - t.centre ω) := measurable_const.sub hm
  have he : (fun ω => ell (t.centre ω) t.sp t.sn y) = (fun x => ell 0 t.sp t.sn (x + (y - t.truth))) ∘ fun ω => t.truth - t.centre ω := by
    funext ω
    simp only [Function.comp_def]
    rw [ell_centre]
    congr 1
    ring
  have hmeas : Measurable (fun x => ell 0 t.sp t.sn (x + (y - t.truth))) :=
    (ell_measurable 0 t.sp t.sn).comp (measurable_id.add_const _)
  have hi := ell_shift_integrable hp hn (y - t.truth)
  unfold devLaw at hi ⊢
  rw [← hl] at hi ⊢
  constructor
  · rw [he]
    exact (integrable_map_measure hmeas.aestronglyMeasurable hX.aemeasurable).1 hi
  · rw [integral_map hX.aemeasurable hmeas.aestronglyMeasurable, he]
    rfl

theorem trials_mean {Ω : Type} [MeasurableSpace Ω] {P : Measure Ω} (ts : List (Trial Ω × ℝ)) (ht : ∀ q ∈ ts, q.1.Honest P)
    (hpos : ∀ q ∈ ts, 0 < q.1.sp ∧ 0 < q.1.sn) (heff : ∀ q ∈ ts, 0 ≤ q.1.eff) :
    Integrable (fun ω => (ts.map (fun q => q.1.eff * ell (q.1.centre ω) q.1.sp q.1.sn q.1.truth)).sum) P ∧
    Integrable (fun ω => (ts.map (fun q => q.1.eff * ell (q.1.centre ω) q.1.sp q.1.sn q.2)).sum) P ∧
    ∫ ω, (ts.map (fun q => q.1.eff * ell (q.1.centre ω) q.1.sp q.1.sn q.2)).sum ∂P ≤
      ∫ ω, (ts.map (fun q => q.1.eff * ell (q.1.centre ω) q.1.sp q.1.sn q.1.truth)).sum ∂P ∧
    ((∃ q ∈ ts, 0 < q.1.eff ∧ q.2 ≠ q.1.truth) →
      ∫ ω, (ts.map (fun q => q.1.eff * ell (q.1.centre ω) q.1.sp q.1.sn q.2)).sum ∂P <
      ∫ ω, (ts.map (fun q => q.1.eff * ell (q.1.centre ω) q.1.sp q.1.sn q.1.truth)).sum ∂P) := by
  induction ts with
  | nil => simp
  | cons q ts ih =>
    simp only [List.mem_cons, forall_eq_or_imp] at ht hpos heff
    obtain ⟨i1, i2, i3, i4⟩ := ih ht.2 hpos.2 heff.2
    obtain ⟨j1, j2⟩ := trial_mean q.1 ht.1 hpos.1.1 hpos.1.2 q.1.truth
    obtain ⟨k1, k2⟩ := trial_mean q.1 ht.1 hpos.1.1 hpos.1.2 q.2
    simp only [sub_self, add_zero] at j2
    simp only [List.map_cons, List.sum_cons]
    rw [integral_add (j1.const_mul _) i1, integral_add (k1.const_mul _) i2, integral_const_mul, integral_const_mul, j2, k2]
    have hs : q.2 ≠ q.1.truth → ∫ x, ell 0 q.1.sp q.1.sn (x + (q.2 - q.1.truth)) ∂(devLaw q.1.sp q.1.sn) <
        ∫ x, ell 0 q.1.sp q.1.sn x ∂(devLaw q.1.sp q.1.sn) := fun h => ell_gibbs hpos.1.1 hpos.1.2 (sub_ne_zero.2 h)
    have hle : q.1.eff * ∫ x, ell 0 q.1.sp q.1.sn (x + (q.2 - q.1.truth)) ∂(devLaw q.1.sp q.1.sn) ≤
        q.1.eff * ∫ x, ell 0 q.1.sp q.1.sn x ∂(devLaw q.1.sp q.1.sn) := by
      refine mul_le_mul_of_nonneg_left ?_ heff.1
      by_cases h : q.2 = q.1.truth
      · simp [h]
      · exact (hs h).le
    refine ⟨(j1.const_mul _).add i1, (k1.const_mul _).add i2, add_le_add hle i3, ?_⟩
    rintro ⟨r, hr, h0, hne⟩
    rcases List.mem_cons.1 hr with rfl | hr
    · exact add_lt_add_of_lt_of_le (mul_lt_mul_of_pos_left (hs hne) h0) i3
    · exact add_lt_add_of_le_of_lt hle (i4 ⟨r, hr, h0, hne⟩)

end Verif.Llh
