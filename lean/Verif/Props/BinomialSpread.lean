/-
Property theorems of C121: mean and spread of approximated binomial draws (randgen.py 256-297 and 408-418).
-/
import Verif.Lemmas.BinomialSpread
import Verif.Props.Sampler
import Verif.Props.Randgen

namespace Verif.Randgen
open Verif MeasureTheory ProbabilityTheory Plugins

variable {m : Nat} {Ω : Type} [MeasurableSpace Ω]

/-- **C121 (spread).** Above the threshold, the mean square distance of the hybrid sampler's draws to the mean of the binomial law
is at most the square of a width plus one half, the width being that of the law up to a term which vanishes as the variance
grows. What is missing is the law itself: `C121_tiny_probability` shows how far from it the draws can be. -/
theorem C121_spread_partial {P : Measure Ω} [IsProbabilityMeasure P] {r : Ω → Rng m} (hr : IdealSource P r) (rnd : ℝ → ℤ)
    (hrnd : ∀ y, |(rnd y : ℝ) - y| ≤ 1 / 2) (threshold : Nat) (p : Fin m → ℝ) (n : Fin m → ℤ) (s : St) (i : Fin m)
    (hn : (threshold : ℤ) < n i) (h0 : 0 < p i) (h1 : p i < 1) :
    ∫ ω, (((binomialHybrid rnd threshold (r ω) p n s).1 i : ℝ) - n i * p i) ^ 2 ∂P ≤
      (√((n i * p i * (1 - p i) + 1e-12) + 1 / (64 * (n i * p i * (1 - p i) + 1e-12))) + 1 / 2) ^ 2 := by
  obtain ⟨x, hxm, hx2, hmean, -, hv, hH⟩ := hybrid_near threshold (n i) (p i) hn h0 h1
  have hnr : (0 : ℝ) < n i := by exact_mod_cast (by omega : 0 < n i)
  have hZ : ∀ k, MeasurePreserving (fun ω => (r ω).normal k i) P (gaussianReal 0 1) :=
    fun k => ⟨hr.normal_meas k i, hr.normal_law k i⟩
  refine rounded_rms (X := fun ω => x ((r ω).normal _ i)) (n := n i) (hx2.comp_measurePreserving (hZ _)) (by positivity)
    (by nlinarith) ?_ (fun ω => hH rnd hrnd _ _)
  rw [law_integral hr _ i (f := fun z => (x z - n i * p i) ^ 2) (by fun_prop)]
  exact hv

/-- **C121 (mean).** Above the threshold, the mean of the hybrid sampler's draws is the mean of the binomial law up to one half
for the rounding and about one quarter for the clipping, unless the variance is small. -/
theorem C121_mean_partial {P : Measure Ω} [IsProbabilityMeasure P] {r : Ω → Rng m} (hr : IdealSource P r) (rnd : ℝ → ℤ)
    (hm : Monotone rnd) (hrnd : ∀ y, |(rnd y : ℝ) - y| ≤ 1 / 2) (threshold : Nat) (p : Fin m → ℝ) (n : Fin m → ℤ) (s : St)
    (i : Fin m) (hn : (threshold : ℤ) < n i) (h0 : 0 < p i) (h1 : p i < 1) :
    |∫ ω, ((binomialHybrid rnd threshold (r ω) p n s).1 i : ℝ) ∂P - n i * p i| ≤
      1 / 2 + ((n i * p i * (1 - p i) + 1e-12) + 1 / (64 * (n i * p i * (1 - p i) + 1e-12))) /
        (4 * (n i * p i * (1 - p i))) := by
  obtain ⟨x, hxm, hx2, hmean, -, hv, hH⟩ := hybrid_near threshold (n i) (p i) hn h0 h1
  have hnr : (0 : ℝ) < n i := by exact_mod_cast (by omega : 0 < n i)
  have hZ : ∀ k, MeasurePreserving (fun ω => (r ω).normal k i) P (gaussianReal 0 1) :=
    fun k => ⟨hr.normal_meas k i, hr.normal_law k i⟩
  have hmeas : Measurable (fun ω => (binomialHybrid rnd threshold (r ω) p n s).1 i) := by
    have he : (fun ω => (binomialHybrid rnd threshold (r ω) p n s).1 i) =
        fun ω => cfPath rnd (p i) (n i) ((r ω).normal (s.key.child 3 1) i) := by
      funext ω
      exact hybrid_cf rnd threshold (n i) (p i) _ _ hn h0 h1
    rw [he]
    exact (cfPath_measurable hm (p i) (n i)).comp (hr.normal_meas _ i)
  have h := rounded_mean (X := fun ω => x ((r ω).normal (s.key.child 3 1) i))
    (H := fun ω => (binomialHybrid rnd threshold (r ω) p n s).1 i) (m := n i * p i) (n := n i)
    (v := (n i * p i * (1 - p i) + 1e-12) + 1 / (64 * (n i * p i * (1 - p i) + 1e-12)))
    (hx2.comp_measurePreserving (hZ _)) hmeas (by positivity) (by nlinarith)
    (by rw [law_integral hr _ i hxm]; exact hmean)
    (by rw [law_integral hr _ i (f := fun z => (x z - n i * p i) ^ 2) (by fun_prop)]; exact hv)
    (fun ω => hH rnd hrnd _ _)
  refine h.trans (le_of_eq ?_)
  have h1' : 0 < 1 - p i := by linarith
  have : (n i : ℝ) / (4 * (n i * p i) * (n i - n i * p i)) = 1 / (4 * (n i * p i * (1 - p i))) := by
    have : (n i : ℝ) - n i * p i = n i * (1 - p i) := by ring
    rw [this]
    field_simp
  rw [this, mul_one_div]

/-- **C121 (shape).** Above the threshold, the number that is rounded and kept between zero and the count has the mean of the
binomial law, its variance up to a term which vanishes as the variance grows, and leans to the same side as the law: to large
values below probability one half, to small values above it, to neither at one half. -/
theorem C121_shape (threshold : Nat) (n : ℤ) (p : ℝ) (hn : (threshold : ℤ) < n) (h0 : 0 < p) (h1 : p < 1) :
    ∃ x : ℝ → ℝ, MemLp x 2 (gaussianReal 0 1) ∧ ∫ z, x z ∂(gaussianReal 0 1) = n * p ∧
      n * p * (1 - p) + 1e-12 ≤ ∫ z, (x z - n * p) ^ 2 ∂(gaussianReal 0 1) ∧
      ∫ z, (x z - n * p) ^ 2 ∂(gaussianReal 0 1) ≤
        (n * p * (1 - p) + 1e-12) + 1 / (64 * (n * p * (1 - p) + 1e-12)) ∧
      (p < 1 / 2 → 0 < ∫ z, (x z - n * p) ^ 3 ∂(gaussianReal 0 1)) ∧
      (p = 1 / 2 → ∫ z, (x z - n * p) ^ 3 ∂(gaussianReal 0 1) = 0) ∧
      (1 / 2 < p → ∫ z, (x z - n * p) ^ 3 ∂(gaussianReal 0 1) < 0) ∧
      ∀ rnd z u, hybrid rnd threshold p n z u =
        if p ≤ 1 / 2 then min (max (rnd (x z)) 0) n else n - min (max (rnd (n - x z)) 0) n := by
  have hnr : (0 : ℝ) < n := by exact_mod_cast (by omega : 0 < n)
  have hval := fun rnd z u => hybrid_cf rnd threshold n p z u hn h0 h1
  have hvar : ∀ q : ℝ, 0 < q → q < 1 → 0 < n * q * (1 - q) + 1e-12 := by
    intro q hq0 hq1
    have := mul_nonneg (mul_nonneg hnr.le hq0.le) (by linarith : 0 ≤ 1 - q)
    norm_num
    linarith
  by_cases hp : p ≤ 1 / 2
  · have hb := cfVar_bounds p n (by omega) h0.le h1.le
    rw [← cornishFisher_var p n (hvar p h0 h1).le] at hb
    obtain ⟨c, hc, hs⟩ := cornishFisher_skew p n (hvar p h0 h1)
    refine ⟨cornishFisher p n, cornishFisher_memLp p n, cornishFisher_mean p n, hb.1, hb.2, fun h => ?_, fun h => ?_,
      fun h => by linarith, fun rnd z u => ?_⟩
    · rw [hs]
      exact mul_pos hc (by linarith)
    · rw [hs, h]
      norm_num
    · rw [hval, if_pos hp]
      unfold cfPath
      simp only
      rw [if_neg (by norm_num; linarith), if_neg (by norm_num; linarith)]
  · have hq0 : 0 < 1 - p := by linarith
    have hq1 : 1 - p < 1 := by linarith
    have hb := cfVar_bounds (1 - p) n (by omega) hq0.le hq1.le
    rw [← cornishFisher_var (1 - p) n (hvar _ hq0 hq1).le] at hb
    have e : (n : ℝ) * (1 - p) * (1 - (1 - p)) = n * p * (1 - p) := by ring
    rw [e] at hb
    obtain ⟨c, hc, hs⟩ := cornishFisher_skew (1 - p) n (hvar _ hq0 hq1)
    have e2 : ∀ z, (n - cornishFisher (1 - p) n z - n * p) ^ 2 = (cornishFisher (1 - p) n z - n * (1 - p)) ^ 2 := by
      intro z
      ring
    have e3 : ∀ z, (n - cornishFisher (1 - p) n z - n * p) ^ 3 = -(cornishFisher (1 - p) n z - n * (1 - p)) ^ 3 := by
      intro z
      ring
    refine ⟨fun z => n - cornishFisher (1 - p) n z, (memLp_const _).sub (cornishFisher_memLp _ n), ?_, ?_, ?_,
      fun h => by linarith, fun h => by linarith, fun h => ?_, fun rnd z u => ?_⟩
    · rw [integral_sub (integrable_const _) (cornishFisher_integrable _ n), cornishFisher_mean]
      simp
      ring
    · simp only [e2]
      exact hb.1
    · simp only [e2]
      exact hb.2
    · simp only [e3]
      rw [integral_neg, hs]
      have := mul_pos hc (by linarith : 0 < 1 - 2 * (1 - p))
      linarith
    · rw [hval, if_neg hp, sub_sub_cancel]
      unfold cfPath
      simp only
      rw [if_pos (by norm_num; linarith), if_pos (by norm_num; linarith)]

/-- Two hundred electrons at probability three tenths: the draw leans to large values. -/
example : ∃ x : ℝ → ℝ, 0 < ∫ z, (x z - 60) ^ 3 ∂(gaussianReal 0 1) ∧
    ∀ rnd z u, hybrid rnd 128 0.3 200 z u = min (max (rnd (x z)) 0) 200 := by
  obtain ⟨x, -, -, -, -, h, -, -, hx⟩ := C121_shape 128 200 0.3 (by norm_num) (by norm_num) (by norm_num)
  refine ⟨x, ?_, fun rnd z u => ?_⟩
  · have := h (by norm_num)
    norm_num at this
    exact this
  · rw [hx, if_pos (by norm_num)]

/-- **C121 (without jax.random.binomial).** The normal approximation used where jax has no binomial, always or at expectations
of at least five, has the binomial mean up to three quarters and the binomial spread up to one half. -/
theorem C121_fallback_partial {P : Measure Ω} [IsProbabilityMeasure P] {r : Ω → Rng m}
    (hr : ∀ k, MeasurePreserving (fun ω => (r ω).normal1 k) P (gaussianReal 0 1)) (rnd : ℝ → ℤ)
    (hm : Monotone rnd) (hrnd : ∀ y, |(rnd y : ℝ) - y| ≤ 1 / 2) (always : Bool) (p : Fin m → ℝ) (n : Fin m → ℤ) (s : St)
    (i : Fin m) (hn : 0 < n i) (h0 : 0 < p i) (h1 : p i < 1) (ha : always = true ∨ 5 ≤ (n i : ℝ) * p i) :
    |∫ ω, ((binomialFallback rnd always (r ω) p n s).1 i : ℝ) ∂P - n i * p i| ≤ 3 / 4 ∧
    ∫ ω, (((binomialFallback rnd always (r ω) p n s).1 i : ℝ) - n i * p i) ^ 2 ∂P ≤
      (√(n i * p i * (1 - p i)) + 1 / 2) ^ 2 := by
  have hnr : (0 : ℝ) < n i := by exact_mod_cast hn
  have h1' : 0 < 1 - p i := by linarith
  set V := (n i : ℝ) * p i * (1 - p i) with hV
  have hVp : 0 < V := by positivity
  set k := (s.key.child 2 1).child m i with hk
  have he : ∀ ω, (binomialFallback rnd always (r ω) p n s).1 i = normalApprox rnd (p i) (n i) ((r ω).normal1 k) := by
    intro ω
    change dispatch rnd always (r ω) k (p i) (n i) = _
    unfold dispatch
    rcases ha with ha | ha
    · rw [ha]; rfl
    · cases always
      · rw [if_neg (by simp), if_pos ha]
      · rfl
  simp only [he]
  have hx2 : MemLp (fun z : ℝ => z * √V + n i * p i) 2 (gaussianReal 0 1) :=
    ((memLp_id_gaussianReal 2).mul_const _).add (memLp_const _)
  have hint : ∀ {f : ℝ → ℝ}, Measurable f → ∫ ω, f ((r ω).normal1 k) ∂P = ∫ z, f z ∂(gaussianReal 0 1) := by
    intro f hf
    rw [← (hr k).map_eq]
    exact (integral_map (hr k).measurable.aemeasurable hf.aestronglyMeasurable).symm
  have hmean : ∫ z, z * √V + n i * p i ∂(gaussianReal 0 1) = n i * p i := by
    rw [integral_add (N_int_id.mul_const _) (integrable_const _), integral_mul_const, N_id]
    simp
  have hvar : ∫ z, (z * √V + n i * p i - n i * p i) ^ 2 ∂(gaussianReal 0 1) = V := by
    simp only [add_sub_cancel_right, mul_pow]
    rw [integral_mul_const, N_sq, Real.sq_sqrt hVp.le, one_mul]
  have hH : ∀ ω, |(normalApprox rnd (p i) (n i) ((r ω).normal1 k) : ℝ)
      - min (max ((r ω).normal1 k * √V + n i * p i) 0) (n i)| ≤ 1 / 2 := fun ω => hrnd _
  have hmeas : Measurable (fun ω => normalApprox rnd (p i) (n i) ((r ω).normal1 k)) := by
    unfold normalApprox
    exact hm.measurable.comp (((((hr k).measurable.mul_const _).add_const _).max measurable_const).min measurable_const)
  have hcomp := hx2.comp_measurePreserving (hr k)
  constructor
  · have h := rounded_mean (X := fun ω => (r ω).normal1 k * √V + n i * p i)
      (H := fun ω => normalApprox rnd (p i) (n i) ((r ω).normal1 k)) (m := n i * p i) (n := n i) (v := V) hcomp hmeas
      (by positivity) (by nlinarith)
      (by rw [hint (f := fun z => z * √V + n i * p i) (by fun_prop)]; exact hmean)
      (by rw [hint (f := fun z => (z * √V + n i * p i - n i * p i) ^ 2) (by fun_prop)]; exact hvar.le) hH
    refine h.trans (le_of_eq ?_)
    have e1 : (n i : ℝ) - n i * p i = n i * (1 - p i) := by ring
    rw [e1, hV]
    field_simp
    norm_num
  · exact rounded_rms (X := fun ω => (r ω).normal1 k * √V + n i * p i) (n := n i) hcomp (by positivity) (by nlinarith)
      (by rw [hint (f := fun z => (z * √V + n i * p i - n i * p i) ^ 2) (by fun_prop)]; exact hvar.le) hH

/-- **C121 (tiny probabilities).** Of 200 trials with probability 1e-12 each, above the shipped threshold, the hybrid sampler
lets all succeed with probability at least 0.15, so its mean is at least 30 instead of 2e-10. -/
theorem C121_tiny_probability {P : Measure Ω} [IsProbabilityMeasure P] {r : Ω → Rng m} (hr : IdealSource P r) (rnd : ℝ → ℤ)
    (hm : Monotone rnd) (hrnd : ∀ y, |(rnd y : ℝ) - y| ≤ 1 / 2) (s : St) (i : Fin m) :
    0.15 ≤ P.real {ω | (binomialHybrid rnd 128 (r ω) (fun _ => 1e-12) (fun _ => 200) s).1 i = 200} ∧
    30 ≤ ∫ ω, ((binomialHybrid rnd 128 (r ω) (fun _ => 1e-12) (fun _ => 200) s).1 i : ℝ) ∂P := by
  have hval : ∀ z u, z ∈ Set.Icc (1 / 4 : ℝ) (17 / 20) → hybrid rnd 128 1e-12 200 z u = 200 := by
    intro z u hz
    rw [hybrid_cf rnd 128 200 1e-12 z u (by norm_num) (by norm_num) (by norm_num)]
    have hx := cornishFisher_tiny hz
    unfold cfPath
    simp only
    rw [if_neg (by norm_num), if_neg (by norm_num)]
    have h2 := hrnd (cornishFisher 1e-12 200 z)
    rw [abs_le] at h2
    have : (200 : ℝ) ≤ (rnd (cornishFisher 1e-12 200 z) : ℤ) := by linarith
    have : (200 : ℤ) ≤ rnd (cornishFisher 1e-12 200 z) := by exact_mod_cast this
    omega
  have hsub : (fun ω => (r ω).normal (s.key.child 3 1) i) ⁻¹' Set.Icc (1 / 4 : ℝ) (17 / 20) ⊆
      {ω | (binomialHybrid rnd 128 (r ω) (fun _ => 1e-12) (fun _ => 200) s).1 i = 200} := by
    intro ω hω
    exact hval _ _ hω
  have hlaw : P.real ((fun ω => (r ω).normal (s.key.child 3 1) i) ⁻¹' Set.Icc (1 / 4 : ℝ) (17 / 20)) =
      (gaussianReal 0 1).real (Set.Icc (1 / 4 : ℝ) (17 / 20)) := by
    rw [← hr.normal_law (s.key.child 3 1) i, Measure.real, Measure.real, Measure.map_apply (hr.normal_meas _ i) measurableSet_Icc]
  have hG : 0.15 ≤ (gaussianReal 0 1).real (Set.Icc (1 / 4 : ℝ) (17 / 20)) := by
    have h := N_Icc_lower (a := 1 / 4) (b := 17 / 20) (c := 289 / 400) (by norm_num) (fun x hx => by nlinarith [hx.1, hx.2])
    refine le_trans ?_ h
    have h1 := inv_sqrt_two_pi_lower
    have h2 : (0.638 : ℝ) ≤ Real.exp (-(289 / 400 / 2)) := by
      have := Real.add_one_le_exp (-(289 / 400 / 2 : ℝ))
      norm_num at this ⊢
      linarith
    have h3 := mul_le_mul h1 h2 (by norm_num) (by positivity)
    norm_num at h3 ⊢
    linarith
  have hprob : 0.15 ≤ P.real {ω | (binomialHybrid rnd 128 (r ω) (fun _ => 1e-12) (fun _ => 200) s).1 i = 200} :=
    (hG.trans_eq hlaw.symm).trans (measureReal_mono hsub)
  refine ⟨hprob, ?_⟩
  have hmeas : Measurable (fun ω => (binomialHybrid rnd 128 (r ω) (fun _ => 1e-12) (fun _ => 200) s).1 i) := by
    have he : (fun ω => (binomialHybrid rnd 128 (r ω) (fun _ => 1e-12) (fun _ => 200) s).1 i) =
        fun ω => cfPath rnd 1e-12 200 ((r ω).normal (s.key.child 3 1) i) := by
      funext ω
      exact hybrid_cf rnd 128 200 1e-12 _ _ (by norm_num) (by norm_num) (by norm_num)
    rw [he]
    exact (cfPath_measurable hm 1e-12 200).comp (hr.normal_meas _ i)
  have hrange := fun ω => C46_range rnd 128 (r ω) (fun _ => 1e-12) (fun _ => 200) s i
  have hset : MeasurableSet {ω | (binomialHybrid rnd 128 (r ω) (fun _ => 1e-12) (fun _ => 200) s).1 i = 200} :=
    hmeas (measurableSet_singleton (200 : ℤ))
  have hHm : Measurable (fun ω => ((binomialHybrid rnd 128 (r ω) (fun _ => 1e-12) (fun _ => 200) s).1 i : ℝ)) :=
    (measurable_of_countable (fun k : ℤ => (k : ℝ))).comp hmeas
  have hi : Integrable (fun ω => ((binomialHybrid rnd 128 (r ω) (fun _ => 1e-12) (fun _ => 200) s).1 i : ℝ)) P := by
    refine (integrable_const (200 : ℝ)).mono' hHm.aestronglyMeasurable (Filter.Eventually.of_forall (fun ω => ?_))
    have h := hrange ω
    rw [Real.norm_eq_abs, abs_le]
    have h2 : (binomialHybrid rnd 128 (r ω) (fun _ => 1e-12) (fun _ => 200) s).1 i ≤ 200 := h.2.trans (by norm_num)
    constructor
    · have : (0 : ℝ) ≤ ((binomialHybrid rnd 128 (r ω) (fun _ => 1e-12) (fun _ => 200) s).1 i : ℝ) := by exact_mod_cast h.1
      linarith
    · exact_mod_cast h2
  have hmono : ∫ ω, Set.indicator {ω | (binomialHybrid rnd 128 (r ω) (fun _ => 1e-12) (fun _ => 200) s).1 i = 200}
      (fun _ => (200 : ℝ)) ω ∂P ≤ ∫ ω, ((binomialHybrid rnd 128 (r ω) (fun _ => 1e-12) (fun _ => 200) s).1 i : ℝ) ∂P := by
    refine integral_mono ((integrable_const _).indicator hset) hi (fun ω => ?_)
    by_cases c : (binomialHybrid rnd 128 (r ω) (fun _ => 1e-12) (fun _ => 200) s).1 i = 200
    · rw [Set.indicator_of_mem (by exact c), c]
      norm_num
    · rw [Set.indicator_of_notMem (by exact c)]
      exact Int.cast_nonneg (hrange ω).1
  rw [integral_indicator_const _ hset, smul_eq_mul] at hmono
  norm_num at hprob hmono ⊢
  linarith

/-- Non-vacuity of C121: an ideal source of draws exists, and 200 trials with probability one half have a variance of 50. -/
example : ∃ (Ω : Type) (_ : MeasurableSpace Ω) (P : Measure Ω) (r : Ω → Rng 1), IdealSource P r ∧
    |∫ ω, ((binomialHybrid round 128 (r ω) (fun _ => 1 / 2) (fun _ => 200) ⟨[], []⟩).1 0 : ℝ) ∂P - 100| ≤ 4 / 5 := by
  obtain ⟨Ω, i, P, r, hP, hr⟩ := C99_source_exists 1
  refine ⟨Ω, i, P, r, hr, ?_⟩
  have h := C121_mean_partial hr round (fun a b h => by rw [round_eq, round_eq]; exact Int.floor_mono (by linarith)) (fun y => by rw [abs_sub_comm]; exact abs_sub_round y) 128 (fun _ => 1 / 2)
    (fun _ => 200) ⟨[], []⟩ 0 (by norm_num) (by norm_num) (by norm_num)
  norm_num at h ⊢
  linarith

end Verif.Randgen
