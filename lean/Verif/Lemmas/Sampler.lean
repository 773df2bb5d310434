/-
Lemmas about the laws of the samplers.
-/
import Verif.Spec.Sampler
import Verif.Lemmas.TwoHalfNorm
import Verif.Lemmas.NegBinom

namespace Verif.Randgen
open Verif MeasureTheory ProbabilityTheory

theorem map_volume_affine (s l : ℝ) (h : s ≠ 0) :
    (volume : Measure ℝ).map (fun x => x * s + l) = ENNReal.ofReal |s⁻¹| • volume := by
  have e : (fun x : ℝ => x * s + l) = (fun x => x + l) ∘ (fun x => x * s) := rfl
  rw [e, ← Measure.map_map (by fun_prop) (by fun_prop), Real.map_volume_mul_right h, Measure.map_smul, map_add_right_eq_self]

theorem map_density_affine (f : ℝ → ENNReal) (hf : Measurable f) (s l : ℝ) (h : s ≠ 0) :
    ((volume : Measure ℝ).withDensity f).map (fun x => x * s + l)
      = volume.withDensity (fun y => ENNReal.ofReal |s⁻¹| * f ((y - l) / s)) := by
  have hg : Measurable (fun x : ℝ => x * s + l) := by fun_prop
  have hF : Measurable (fun y => f ((y - l) / s)) := hf.comp (by fun_prop)
  ext A hA
  rw [Measure.map_apply hg hA, withDensity_apply _ (hg hA), withDensity_apply _ hA]
  have e : ∀ x : ℝ, f x = (fun y => f ((y - l) / s)) (x * s + l) := fun x => by
    show f x = f ((x * s + l - l) / s)
    rw [add_sub_cancel_right, mul_div_cancel_right₀ _ h]
  rw [setLIntegral_congr_fun (hg hA) (fun x _ => e x), ← setLIntegral_map hA hF hg, map_volume_affine s l h, Measure.restrict_smul,
    lintegral_smul_measure, lintegral_const_mul _ hF]
  rfl

theorem gamma_scale (a b : ℝ) (ha : 0 < a) (hb : 0 < b) : (gammaMeasure a 1).map (fun x => x / b) = gammaMeasure a b := by
  have e : (fun x : ℝ => x / b) = fun x => x * b⁻¹ + 0 := by funext x; rw [add_zero, div_eq_mul_inv]
  unfold gammaMeasure
  rw [e, map_density_affine _ (by unfold gammaPDF; exact (measurable_gammaPDFReal a 1).ennreal_ofReal) _ _ (inv_ne_zero hb.ne')]
  congr 1
  funext y
  rw [inv_inv, abs_of_pos hb, sub_zero, div_inv_eq_mul]
  by_cases hy : y < 0
  · rw [gammaPDF_of_neg hy, gammaPDF_of_neg (mul_neg_of_neg_of_pos hy hb), mul_zero]
  · rw [gammaPDF_of_nonneg (not_lt.1 hy), gammaPDF_of_nonneg (mul_nonneg (not_lt.1 hy) hb.le), ← ENNReal.ofReal_mul hb.le]
    congr 1
    rw [Real.mul_rpow (not_lt.1 hy) hb.le, Real.one_rpow, one_mul, Real.rpow_sub_one hb.ne']
    rw [mul_comm y b]
    field_simp

/-- Folding the normal law at zero doubles its upper half. -/
theorem fold_lintegral (F : ℝ → ENNReal) (hF : Measurable F) : ∫⁻ z, F |z| ∂G = 2 * ∫⁻ z in Set.Ioi 0, F z ∂G := by
  have h : G.map (fun z => |z|) = (2 : ENNReal) • G.restrict (Set.Ioi 0) := by
    ext A hA
    have := abs_law 0 1 one_ne_zero A hA
    simp only [zero_add, mul_one] at this
    rw [Measure.map_apply (by fun_prop) hA]
    refine (this.trans ?_)
    have hs : sq 1 = 1 := by ext; rw [coe_sq]; simp
    have hb : beyond 0 1 = Set.Ioi 0 := by ext x; simp [beyond]
    rw [hs, hb, Measure.smul_apply, Measure.restrict_apply hA, smul_eq_mul]
  rw [← lintegral_map hF (by fun_prop), h, lintegral_smul_measure, smul_eq_mul]

/-- Exchanging the two normal numbers of a skew-normal draw. -/
theorem gauss_exchange (a k x z : ℝ) (hk : 0 < k) (hk2 : k ^ 2 = 1 + a ^ 2) :
    gaussianPDFReal 0 1 z * gaussianPDFReal (a / k * z) (sq k⁻¹) x = gaussianPDFReal 0 1 x * gaussianPDFReal (a / k * x) (sq k⁻¹) z := by
  simp only [gaussianPDFReal, coe_sq, NNReal.coe_one]
  rw [mul_mul_mul_comm, mul_mul_mul_comm _ _ _ (Real.exp (-(z - a / k * x) ^ 2 / (2 * k⁻¹ ^ 2))), ← Real.exp_add, ← Real.exp_add]
  congr 2
  field_simp
  linear_combination (z ^ 2 - x ^ 2) * hk2

theorem gpdf_joint (a k : ℝ) : Measurable (fun w : ℝ × ℝ => gaussianPDFReal (a / k * w.1) (sq k⁻¹) w.2) := by
  unfold gaussianPDFReal
  fun_prop

theorem skew_inner (a k x : ℝ) (hk : 0 < k) (hk2 : k ^ 2 = 1 + a ^ 2) :
    ∫⁻ z in Set.Ioi 0, ENNReal.ofReal (gaussianPDFReal (a / k * z) (sq k⁻¹) x) ∂G
      = ENNReal.ofReal (gaussianPDFReal 0 1 x) * gaussianReal (a / k * x) (sq k⁻¹) (Set.Ioi 0) := by
  have hv : sq k⁻¹ ≠ 0 := sq_ne_zero' (inv_ne_zero hk.ne')
  have hG : G = volume.withDensity (fun z => ENNReal.ofReal (gaussianPDFReal 0 1 z)) := gaussianReal_of_var_ne_zero 0 one_ne_zero
  have hm1 : Measurable (fun z => ENNReal.ofReal (gaussianPDFReal 0 1 z)) := (measurable_gaussianPDFReal 0 1).ennreal_ofReal
  have hm2 : Measurable (fun z => ENNReal.ofReal (gaussianPDFReal (a / k * z) (sq k⁻¹) x)) := by
    apply Measurable.ennreal_ofReal
    unfold gaussianPDFReal
    fun_prop
  rw [hG, setLIntegral_withDensity_eq_setLIntegral_mul _ hm1 hm2 measurableSet_Ioi, gaussianReal_apply _ hv,
    ← lintegral_const_mul _ (measurable_gaussianPDF _ _)]
  refine lintegral_congr (fun z => ?_)
  show ENNReal.ofReal _ * ENNReal.ofReal _ = ENNReal.ofReal _ * ENNReal.ofReal _
  rw [← ENNReal.ofReal_mul (gaussianPDFReal_nonneg _ _ _), ← ENNReal.ofReal_mul (gaussianPDFReal_nonneg _ _ _), gauss_exchange a k x z hk hk2]

theorem skew_tail (a k x : ℝ) (hk : 0 < k) :
    gaussianReal (a / k * x) (sq k⁻¹) (Set.Ioi 0) = ENNReal.ofReal (normalCdf (a * x)) := by
  rw [← map_affine, Measure.map_apply (by fun_prop) measurableSet_Ioi]
  have hset : (fun z : ℝ => a / k * x + k⁻¹ * z) ⁻¹' Set.Ioi 0 = (fun z => -z) ⁻¹' Set.Iio (a * x) := by
    ext z
    simp only [Set.mem_preimage, Set.mem_Ioi, Set.mem_Iio]
    rw [show a / k * x + k⁻¹ * z = (a * x + z) / k by field_simp, div_pos_iff_of_pos_right hk]
    constructor <;> intro h <;> linarith
  rw [hset, ← Measure.map_apply (by fun_prop) measurableSet_Iio, map_neg_G, normalCdf, Measure.real, ENNReal.ofReal_toReal (measure_ne_top _ _)]
  haveI := noAtoms_gaussianReal (μ := 0) (v := 1) one_ne_zero
  exact measure_congr Iio_ae_eq_Iic

theorem skew_law (a : ℝ) : (G.prod G).map (fun w => (a * |w.1| + w.2) / √(1 + a ^ 2))
    = volume.withDensity (fun x => ENNReal.ofReal (2 * gaussianPDFReal 0 1 x * normalCdf (a * x))) := by
  have hk : 0 < √(1 + a ^ 2) := Real.sqrt_pos.2 (by positivity)
  have hk2 : √(1 + a ^ 2) ^ 2 = 1 + a ^ 2 := Real.sq_sqrt (by positivity)
  generalize √(1 + a ^ 2) = k at hk hk2
  have hv : sq k⁻¹ ≠ 0 := sq_ne_zero' (inv_ne_zero hk.ne')
  have hg : Measurable (fun w : ℝ × ℝ => (a * |w.1| + w.2) / k) := by fun_prop
  ext A hA
  rw [Measure.map_apply hg hA, Measure.prod_apply (hg hA), withDensity_apply _ hA]
  have h1 : ∀ z, G (Prod.mk z ⁻¹' ((fun w : ℝ × ℝ => (a * |w.1| + w.2) / k) ⁻¹' A))
      = ∫⁻ x in A, ENNReal.ofReal (gaussianPDFReal (a / k * |z|) (sq k⁻¹) x) := by
    intro z
    have h2 := map_affine (a / k * |z|) k⁻¹
    have h3 : gaussianReal (a / k * |z|) (sq k⁻¹) A = ∫⁻ x in A, ENNReal.ofReal (gaussianPDFReal (a / k * |z|) (sq k⁻¹) x) :=
      gaussianReal_apply _ hv A
    rw [← h3, ← h2, Measure.map_apply (by fun_prop) hA]
    congr 1
    ext y
    simp only [Set.mem_preimage]
    rw [show (a * |z| + y) / k = a / k * |z| + k⁻¹ * y by field_simp]
  simp only [h1]
  have hJ : Measurable (fun w : ℝ × ℝ => ENNReal.ofReal (gaussianPDFReal (a / k * w.1) (sq k⁻¹) w.2)) := (gpdf_joint a k).ennreal_ofReal
  rw [fold_lintegral (fun z => ∫⁻ x in A, ENNReal.ofReal (gaussianPDFReal (a / k * z) (sq k⁻¹) x)) (hJ.lintegral_prod_right')]
  rw [lintegral_lintegral_swap hJ.aemeasurable, ← lintegral_const_mul _ (Measurable.lintegral_prod_left' hJ)]
  refine setLIntegral_congr_fun hA (fun x _ => ?_)
  rw [skew_inner a k x hk hk2, skew_tail a k x hk, ← ENNReal.ofReal_mul (gaussianPDFReal_nonneg _ _ _), ← ENNReal.ofReal_ofNat, ← ENNReal.ofReal_mul (by norm_num), mul_assoc]

/-! ### Ideal draws exist -/

/-- The randomness of one key: uniform numbers, normal numbers and a gamma number for each shape. -/
abbrev SourceSpace (m : Nat) := (Fin m → ℝ) × (Fin m → ℝ) × (ℝ → ℝ)

noncomputable def sourceRng (m : Nat) (ω : Key → SourceSpace m) : Rng m where
  normal := fun k => (ω k).2.1
  uniform := fun k => (ω k).1
  trials := fun _ _ _ => 0
  poisson := fun _ _ _ => 0
  gamma := fun k a i => (ω k).2.2 (a i)
  bernoulli := fun k p i => decide ((ω k).1 i < p i)
  binomial := fun _ _ _ _ => 0
  normal1 := fun _ => 0
  numpyro := fun _ _ _ => 0

noncomputable def sourceKeyLaw (m : Nat) : Measure (SourceSpace m) :=
  (trialsLaw m).prod ((Measure.pi (fun _ => G)).prod (Measure.infinitePi shapeLaw))

instance (m : Nat) : IsProbabilityMeasure (sourceKeyLaw m) := by unfold sourceKeyLaw; infer_instance

noncomputable def sourceLaw (m : Nat) : Measure (Key → SourceSpace m) := Measure.infinitePi (fun _ : Key => sourceKeyLaw m)

instance (m : Nat) : IsProbabilityMeasure (sourceLaw m) := by unfold sourceLaw; infer_instance

theorem source_uniform (m : Nat) (k : Key) (i : Fin m) :
    MeasurePreserving (fun ω : Key → SourceSpace m => (ω k).1 i) (sourceLaw m) (volume.restrict (Set.Ico (0 : ℝ) 1)) := by
  have h1 : MeasurePreserving (fun ω : Key → SourceSpace m => ω k) (sourceLaw m) (sourceKeyLaw m) := measurePreserving_eval_infinitePi _ k
  have h2 : MeasurePreserving (Prod.fst : SourceSpace m → _) (sourceKeyLaw m) (trialsLaw m) := measurePreserving_fst
  have h3 : MeasurePreserving (fun u : Fin m → ℝ => u i) (trialsLaw m) (volume.restrict (Set.Ico (0 : ℝ) 1)) := measurePreserving_eval _ i
  exact h3.comp (h2.comp h1)

theorem source_normal (m : Nat) (k : Key) (i : Fin m) : MeasurePreserving (fun ω : Key → SourceSpace m => (ω k).2.1 i) (sourceLaw m) G := by
  have h1 : MeasurePreserving (fun ω : Key → SourceSpace m => ω k) (sourceLaw m) (sourceKeyLaw m) := measurePreserving_eval_infinitePi _ k
  have h2 : MeasurePreserving (Prod.snd : SourceSpace m → _) (sourceKeyLaw m) ((Measure.pi (fun _ => G)).prod (Measure.infinitePi shapeLaw)) :=
    measurePreserving_snd
  have h3 : MeasurePreserving (Prod.fst : (Fin m → ℝ) × (ℝ → ℝ) → _) ((Measure.pi (fun _ => G)).prod (Measure.infinitePi shapeLaw))
    (Measure.pi (fun _ => G)) := measurePreserving_fst
  have h4 : MeasurePreserving (fun u : Fin m → ℝ => u i) (Measure.pi (fun _ => G)) G := measurePreserving_eval _ i
  exact h4.comp (h3.comp (h2.comp h1))

theorem source_gamma (m : Nat) (k : Key) (a : ℝ) :
    MeasurePreserving (fun ω : Key → SourceSpace m => (ω k).2.2 a) (sourceLaw m) (shapeLaw a) := by
  have h1 : MeasurePreserving (fun ω : Key → SourceSpace m => ω k) (sourceLaw m) (sourceKeyLaw m) := measurePreserving_eval_infinitePi _ k
  have h2 : MeasurePreserving (Prod.snd : SourceSpace m → _) (sourceKeyLaw m) ((Measure.pi (fun _ => G)).prod (Measure.infinitePi shapeLaw)) :=
    measurePreserving_snd
  have h3 : MeasurePreserving (Prod.snd : (Fin m → ℝ) × (ℝ → ℝ) → _) ((Measure.pi (fun _ => G)).prod (Measure.infinitePi shapeLaw))
    (Measure.infinitePi shapeLaw) := measurePreserving_snd
  have h4 : MeasurePreserving (fun g : ℝ → ℝ => g a) (Measure.infinitePi shapeLaw) (shapeLaw a) := measurePreserving_eval_infinitePi _ a
  exact h4.comp (h3.comp (h2.comp h1))

theorem source_ideal (m : Nat) : IdealSource (sourceLaw m) (sourceRng m) where
  uniform_meas k i := (source_uniform m k i).measurable
  uniform_law k i := (source_uniform m k i).map_eq
  normal_meas k i := (source_normal m k i).measurable
  normal_law k i := (source_normal m k i).map_eq
  normal_indep k k' i h := by
    have hi := iIndepFun_infinitePi (P := fun _ : Key => sourceKeyLaw m) (X := fun (_ : Key) (u : SourceSpace m) => u.2.1 i)
      (fun _ => by fun_prop)
    exact hi.indepFun h
  gamma_meas k a i := (source_gamma m k (a i)).measurable
  gamma_law k a i h := by
    have h4 := (source_gamma m k (a i)).map_eq
    unfold shapeLaw at h4
    rw [if_pos h] at h4
    exact h4
  bernoulli_meas k p i := by
    have : Measurable (fun x : ℝ => decide (x < p i)) := measurable_to_bool (by
      have : (fun x : ℝ => decide (x < p i)) ⁻¹' {true} = Set.Iio (p i) := by ext; simp
      rw [this]; exact measurableSet_Iio)
    exact this.comp (source_uniform m k i).measurable
  bernoulli_law k p i h0 h1 := by
    have h := (source_uniform m k i).measure_preimage (measurableSet_Iio (a := p i)).nullMeasurableSet
    have h2 := unif_lt (p i) h0 h1
    rw [unif] at h2
    rw [h2] at h
    refine Eq.trans ?_ h
    congr 1
    ext ω
    simp [sourceRng]

end Verif.Randgen
