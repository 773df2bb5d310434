/-
Property theorems C99: the samplers have the distributions they are named after.
-/
import Verif.Lemmas.Sampler
import Verif.Lemmas.Erf

namespace Verif.Randgen
open Verif MeasureTheory ProbabilityTheory

variable {Ω : Type} [MeasurableSpace Ω] {m : Nat} {P : Measure Ω} {r : Ω → Rng m}

/-- **C99 (uniform).** The uniform sampler is uniform between its limits. -/
theorem C99_uniform (hr : IdealSource P r) (vmin vmax : Fin m → ℝ) (s : St) (i : Fin m) (h : vmin i < vmax i) :
    P.map (fun ω => (uniform (r ω) vmin vmax s).1 i)
      = (ENNReal.ofReal (vmax i - vmin i))⁻¹ • volume.restrict (Set.Ico (vmin i) (vmax i)) := by
  have hd : 0 < vmax i - vmin i := by linarith
  have hg : Measurable (fun x : ℝ => max (vmin i) (x * (vmax i - vmin i) + vmin i)) := by fun_prop
  have e : (fun ω => (uniform (r ω) vmin vmax s).1 i)
      = (fun x : ℝ => max (vmin i) (x * (vmax i - vmin i) + vmin i)) ∘ (fun ω => (r ω).uniform (s.key.child 2 1) i) := rfl
  rw [e, ← Measure.map_map hg (hr.uniform_meas _ _), hr.uniform_law]
  ext A hA
  have hf : Measurable (fun x : ℝ => x * (vmax i - vmin i) + vmin i) := by fun_prop
  rw [Measure.map_apply hg hA, Measure.restrict_apply (hg hA), Measure.smul_apply, Measure.restrict_apply hA, smul_eq_mul]
  have hset : (fun x : ℝ => max (vmin i) (x * (vmax i - vmin i) + vmin i)) ⁻¹' A ∩ Set.Ico 0 1
      = (fun x : ℝ => x * (vmax i - vmin i) + vmin i) ⁻¹' (A ∩ Set.Ico (vmin i) (vmax i)) := by
    ext x
    simp only [Set.mem_inter_iff, Set.mem_preimage, Set.mem_Ico]
    have h0 : vmin i ≤ x * (vmax i - vmin i) + vmin i ↔ 0 ≤ x := by
      constructor
      · intro h0
        by_contra hc
        have := mul_neg_of_neg_of_pos (not_le.1 hc) hd
        linarith
      · intro h0
        have := mul_nonneg h0 hd.le
        linarith
    have h1 : x * (vmax i - vmin i) + vmin i < vmax i ↔ x < 1 := by
      constructor
      · intro h1
        by_contra hc
        have := mul_le_mul_of_nonneg_right (not_lt.1 hc) hd.le
        linarith
      · intro h1
        have := mul_lt_mul_of_pos_right h1 hd
        linarith
    rw [h0, h1]
    constructor
    · rintro ⟨a, b, c⟩
      rw [max_eq_right (h0.2 b)] at a
      exact ⟨a, b, c⟩
    · rintro ⟨a, b, c⟩
      rw [max_eq_right (h0.2 b)]
      exact ⟨a, b, c⟩
  rw [hset, ← Measure.map_apply hf (hA.inter measurableSet_Ico), map_volume_affine _ _ hd.ne', Measure.smul_apply, smul_eq_mul,
    abs_of_pos (inv_pos.2 hd), ENNReal.ofReal_inv_of_pos hd]

/-- **C99 (uniform, limits exchanged).** With the limits in the wrong order, or equal, every draw is the lower limit: nothing is raised. -/
theorem C99_uniform_reversed (r : Rng m) (vmin vmax : Fin m → ℝ) (s : St) (i : Fin m) (h : vmax i ≤ vmin i)
    (hu : ∀ k, 0 ≤ r.uniform k i) : (uniform r vmin vmax s).1 i = vmin i := by
  have := mul_nonneg (hu (s.key.child 2 1)) (sub_nonneg.2 h)
  exact max_eq_left (by linarith)

/-- **C99 (normal).** The normal sampler is normal with its mean and width, also for a width that is zero or negative. -/
theorem C99_normal (hr : IdealSource P r) (mean std : Fin m → ℝ) (s : St) (i : Fin m) :
    P.map (fun ω => (normal (r ω) mean std s).1 i) = gaussianReal (mean i) (.mk (std i ^ 2) (sq_nonneg _)) := by
  have e : (fun ω => (normal (r ω) mean std s).1 i) = (fun x : ℝ => mean i + std i * x) ∘ (fun ω => (r ω).normal (s.key.child 2 1) i) := by
    funext ω
    show (r ω).normal (s.key.child 2 1) i * std i + mean i = mean i + std i * (r ω).normal (s.key.child 2 1) i
    ring
  rw [e, ← Measure.map_map (by fun_prop) (hr.normal_meas _ _), hr.normal_law, map_affine]
  rfl

/-- **C99 (gamma).** The gamma sampler is gamma distributed with shape `alpha` and rate `beta`. -/
theorem C99_gamma (hr : IdealSource P r) (alpha beta : Fin m → ℝ) (s : St) (i : Fin m) (ha : 0 < alpha i) (hb : 0 < beta i) :
    P.map (fun ω => (gamma (r ω) alpha beta s).1 i) = gammaMeasure (alpha i) (beta i) := by
  have e : (fun ω => (gamma (r ω) alpha beta s).1 i) = (fun x : ℝ => x / beta i) ∘ (fun ω => (r ω).gamma (s.key.child 2 1) alpha i) := rfl
  rw [e, ← Measure.map_map (by fun_prop) (hr.gamma_meas _ _ _), hr.gamma_law _ _ _ ha, gamma_scale _ _ ha hb]

/-- **C99 (Bernoulli).** The Bernoulli sampler gives one with its probability and zero else. -/
theorem C99_bernoulli [IsProbabilityMeasure P] (hr : IdealSource P r) (p : Fin m → ℝ) (s : St) (i : Fin m) (h0 : 0 ≤ p i) (h1 : p i ≤ 1) :
    P {ω | (bernoulli (r ω) p s).1 i = 1} = ENNReal.ofReal (p i) ∧ P {ω | (bernoulli (r ω) p s).1 i = 0} = ENNReal.ofReal (1 - p i) := by
  have hl := hr.bernoulli_law (s.key.child 2 1) p i h0 h1
  have hm : MeasurableSet {ω | (r ω).bernoulli (s.key.child 2 1) p i = true} :=
    hr.bernoulli_meas (s.key.child 2 1) p i (measurableSet_singleton true)
  have e1 : {ω | (bernoulli (r ω) p s).1 i = 1} = {ω | (r ω).bernoulli (s.key.child 2 1) p i = true} := by
    ext ω
    show ((r ω).bernoulli (s.key.child 2 1) p i).toNat = 1 ↔ _
    cases h : (r ω).bernoulli (s.key.child 2 1) p i <;> simp [h]
  have e0 : {ω | (bernoulli (r ω) p s).1 i = 0} = {ω | (r ω).bernoulli (s.key.child 2 1) p i = true}ᶜ := by
    ext ω
    show ((r ω).bernoulli (s.key.child 2 1) p i).toNat = 0 ↔ _
    cases h : (r ω).bernoulli (s.key.child 2 1) p i <;> simp [h]
  refine ⟨by rw [e1, hl], ?_⟩
  rw [e0, prob_compl_eq_one_sub hm, hl, ENNReal.ofReal_sub _ h0, ENNReal.ofReal_one]

/-- **C99 (skew-normal).** The skew-normal sampler has the skew-normal density. -/
theorem C99_skewnormal [IsProbabilityMeasure P] (hr : IdealSource P r) (a loc scale : Fin m → ℝ) (s : St) (i : Fin m) (hs : 0 < scale i) :
    P.map (fun ω => (skewnormal (r ω) a loc scale s).1 i)
      = volume.withDensity (fun x => ENNReal.ofReal (skewDensity (a i) (loc i) (scale i) x)) := by
  set k0 := s.key.child 2 1 with hk0
  set k1 := (s.key.child 2 0).child 2 1 with hk1
  have hne : k0 ≠ k1 := by
    intro h
    have := congrArg List.length h
    simp [hk0, hk1, Key.child] at this
  have hpair : P.map (fun ω => ((r ω).normal k0 i, (r ω).normal k1 i)) = G.prod G := by
    rw [(indepFun_iff_map_prod_eq_prod_map_map (hr.normal_meas _ _).aemeasurable (hr.normal_meas _ _).aemeasurable).1 (hr.normal_indep k0 k1 i hne),
      hr.normal_law, hr.normal_law]
  have e : (fun ω => (skewnormal (r ω) a loc scale s).1 i) = (fun x : ℝ => x * scale i + loc i) ∘
      (fun w : ℝ × ℝ => (a i * |w.1| + w.2) / √(1 + a i ^ 2)) ∘ (fun ω => ((r ω).normal k0 i, (r ω).normal k1 i)) := rfl
  have hm : Measurable (fun ω => ((r ω).normal k0 i, (r ω).normal k1 i)) := (hr.normal_meas _ _).prodMk (hr.normal_meas _ _)
  have hg : Measurable (fun w : ℝ × ℝ => (a i * |w.1| + w.2) / √(1 + a i ^ 2)) := by fun_prop
  have hcdf : Measurable normalCdf := by
    apply Monotone.measurable
    intro x y h
    exact measureReal_mono (Set.Iic_subset_Iic.2 h)
  rw [e, ← Measure.map_map (by fun_prop) (hg.comp hm), ← Measure.map_map hg hm, hpair, skew_law, map_density_affine _ ?_ _ _ hs.ne']
  · congr 1
    funext x
    rw [← ENNReal.ofReal_mul (abs_nonneg _), abs_of_pos (inv_pos.2 hs)]
    congr 1
    unfold skewDensity
    ring
  · exact ((measurable_const.mul (measurable_gaussianPDFReal 0 1)).mul (hcdf.comp (measurable_const.mul measurable_id))).ennreal_ofReal

/-- **C99 (truncated normal, partial).** Between the limits the truncated sampler has the law of the normal sampler; all that is outside is put on
the limits. -/
theorem C99_truncated_partial (hr : IdealSource P r) (mean std vmin vmax : Fin m → ℝ) (s : St) (i : Fin m) (h : vmin i < vmax i) :
    (∀ A, MeasurableSet A → A ⊆ Set.Ioo (vmin i) (vmax i) →
      P {ω | (truncateNormal (r ω) mean std (some vmin) (some vmax) s).1 i ∈ A} = gaussianReal (mean i) (.mk (std i ^ 2) (sq_nonneg _)) A) ∧
    P {ω | (truncateNormal (r ω) mean std (some vmin) (some vmax) s).1 i = vmin i} =
      gaussianReal (mean i) (.mk (std i ^ 2) (sq_nonneg _)) (Set.Iic (vmin i)) ∧
    P {ω | (truncateNormal (r ω) mean std (some vmin) (some vmax) s).1 i = vmax i} =
      gaussianReal (mean i) (.mk (std i ^ 2) (sq_nonneg _)) (Set.Ici (vmax i)) := by
  have hl := C99_normal hr mean std s i
  have hm : Measurable (fun ω => (normal (r ω) mean std s).1 i) :=
    ((hr.normal_meas (s.key.child 2 1) i).mul_const (std i)).add_const (mean i)
  have ht : ∀ ω, (truncateNormal (r ω) mean std (some vmin) (some vmax) s).1 i = min (max ((normal (r ω) mean std s).1 i) (vmin i)) (vmax i) :=
    fun ω => rfl
  have key : ∀ B C : Set ℝ, MeasurableSet C → (∀ x, min (max x (vmin i)) (vmax i) ∈ B ↔ x ∈ C) →
      P {ω | (truncateNormal (r ω) mean std (some vmin) (some vmax) s).1 i ∈ B} = gaussianReal (mean i) (.mk (std i ^ 2) (sq_nonneg _)) C := by
    intro B C hC hBC
    rw [← hl, Measure.map_apply hm hC]
    congr 1
    ext ω
    simp only [Set.mem_preimage, Set.mem_setOf_eq, ht]
    exact hBC _
  refine ⟨fun A hA hsub => key A A hA (fun x => ?_), key {vmin i} (Set.Iic (vmin i)) measurableSet_Iic (fun x => ?_),
    key {vmax i} (Set.Ici (vmax i)) measurableSet_Ici (fun x => ?_)⟩
  · rcases le_or_gt x (vmin i) with h1 | h1
    · rw [max_eq_right h1, min_eq_left h.le]
      constructor <;> intro h2
      · exact absurd (hsub h2).1 (lt_irrefl _)
      · exact absurd (hsub h2).1 (not_lt.2 h1)
    · rw [max_eq_left h1.le]
      rcases lt_or_ge x (vmax i) with h2 | h2
      · rw [min_eq_left h2.le]
      · rw [min_eq_right h2]
        constructor <;> intro h3
        · exact absurd (hsub h3).2 (lt_irrefl _)
        · exact absurd (hsub h3).2 (not_lt.2 h2)
  · simp only [Set.mem_singleton_iff, Set.mem_Iic]
    rcases le_or_gt x (vmin i) with h1 | h1
    · rw [max_eq_right h1, min_eq_left h.le]; simp [h1]
    · rw [max_eq_left h1.le]
      constructor <;> intro h2
      · rcases min_choice x (vmax i) with h3 | h3 <;> rw [h3] at h2 <;> linarith
      · linarith
  · simp only [Set.mem_singleton_iff, Set.mem_Ici]
    constructor
    · intro h1
      by_contra hc
      have := max_lt (not_le.1 hc) h
      rw [min_eq_left this.le] at h1
      linarith
    · intro h1
      exact min_eq_right (le_max_of_le_left h1)

/-- **C99 (negation).** The truncated sampler is not the truncated normal law: it gives its limits with positive probability, the truncated normal
law never does. -/
theorem C99_truncated_has_atoms (hr : IdealSource P r) (mean std vmin vmax : Fin m → ℝ) (s : St) (i : Fin m) (h : vmin i < vmax i)
    (hs : std i ≠ 0) : 0 < P {ω | (truncateNormal (r ω) mean std (some vmin) (some vmax) s).1 i = vmin i} ∧
    truncatedLaw (mean i) (std i) (vmin i) (vmax i) {vmin i} = 0 ∧
    P.map (fun ω => (truncateNormal (r ω) mean std (some vmin) (some vmax) s).1 i) ≠ truncatedLaw (mean i) (std i) (vmin i) (vmax i) := by
  have hv : ((.mk (std i ^ 2) (sq_nonneg _)) : NNReal) ≠ 0 := sq_ne_zero' hs
  have hpos : 0 < P {ω | (truncateNormal (r ω) mean std (some vmin) (some vmax) s).1 i = vmin i} := by
    rw [(C99_truncated_partial hr mean std vmin vmax s i h).2.1, pos_iff_ne_zero]
    intro h0
    have := gaussianReal_absolutelyContinuous' (mean i) hv h0
    rw [Real.volume_Iic] at this
    exact ENNReal.top_ne_zero this
  have hzero : truncatedLaw (mean i) (std i) (vmin i) (vmax i) {vmin i} = 0 := by
    haveI := noAtoms_gaussianReal (μ := mean i) hv
    unfold truncatedLaw
    rw [Measure.smul_apply, Measure.restrict_apply (measurableSet_singleton _)]
    rw [measure_mono_null Set.inter_subset_left (measure_singleton _)]
    simp
  refine ⟨hpos, hzero, fun he => ?_⟩
  have hm : Measurable (fun ω => (truncateNormal (r ω) mean std (some vmin) (some vmax) s).1 i) :=
    ((((hr.normal_meas (s.key.child 2 1) i).mul_const (std i)).add_const (mean i)).max measurable_const).min measurable_const
  rw [← he, Measure.map_apply hm (measurableSet_singleton _)] at hzero
  exact hpos.ne' hzero

/-- **C99 (ideal draws exist).** Numbers as `jax.random` promises them exist for arrays of any size. -/
theorem C99_source_exists (m : Nat) : ∃ (Ω : Type) (_ : MeasurableSpace Ω) (P : Measure Ω) (r : Ω → Rng m), IsProbabilityMeasure P ∧ IdealSource P r :=
  ⟨_, _, sourceLaw m, sourceRng m, inferInstance, source_ideal m⟩

/-- A case of C99 that is not trivial: half of all events of a mean at the lower limit are put on the limit. -/
example : ∃ (Ω : Type) (_ : MeasurableSpace Ω) (P : Measure Ω) (r : Ω → Rng 1), IsProbabilityMeasure P ∧ ∀ s,
    P {ω | (truncateNormal (r ω) (fun _ => 0) (fun _ => 1) (some fun _ => 0) (some fun _ => 1) s).1 0 = 0} = 1 / 2 := by
  obtain ⟨Ω, i1, P, r, hP, hr⟩ := C99_source_exists 1
  refine ⟨Ω, i1, P, r, hP, fun s => ?_⟩
  rw [(C99_truncated_partial hr (fun _ => 0) (fun _ => 1) (fun _ => 0) (fun _ => 1) s 0 (by norm_num)).2.1]
  have hv : (.mk (1 ^ 2) (sq_nonneg _) : NNReal) = 1 := by
    ext
    show (1 : ℝ) ^ 2 = 1
    norm_num
  have hc : Set.Iic (0 : ℝ) = (Set.Ioi 0)ᶜ := by ext; simp
  show gaussianReal 0 (.mk (1 ^ 2) (sq_nonneg _) : NNReal) (Set.Iic 0) = _
  rw [hv, hc, prob_compl_eq_one_sub measurableSet_Ioi, gaussian_tail]
  simp [erf]

/-- **C46 (fallback).** Where jax has no binomial sampler the count is numpyro's own draw as long as less than five successes are expected, and the
rounded normal approximation from there on; either uses a key of this element alone. -/
theorem C46_fallback_choice (rnd : ℝ → ℤ) (r : Rng m) (p : Fin m → ℝ) (n : Fin m → ℤ) (s : St) (i : Fin m) :
    ∃ key ∈ (binomialFallback rnd false r p n s).2.used,
      ((n i : ℝ) * p i < 5 → (binomialFallback rnd false r p n s).1 i = r.numpyro key (p i) (n i)) ∧
      (5 ≤ (n i : ℝ) * p i → (binomialFallback rnd false r p n s).1 i
        = rnd (min (max (n i * p i + √(n i * p i * (1 - p i)) * r.normal1 key) 0) (n i))) := by
  refine ⟨(s.key.child 2 1).child m i, ?_, fun h => ?_, fun h => ?_⟩
  · show _ ∈ ((List.finRange m).map _).reverse ++ s.used
    simp
  · show dispatch rnd false r _ (p i) (n i) = _
    unfold dispatch
    rw [if_neg (by simp), if_neg (not_le.2 h)]
  · show dispatch rnd false r _ (p i) (n i) = _
    unfold dispatch normalApprox
    rw [if_neg (by simp), if_pos h]
    congr 3
    ring

end Verif.Randgen
