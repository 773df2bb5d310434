/-
Property theorems C46 to C49 and C67 about the random samplers (randgen.py).
-/
import Verif.Lemmas.TwoHalfNorm
import Verif.Model.Parameter

namespace Verif.Randgen
open Verif MeasureTheory ProbabilityTheory

variable {m : Nat}

/-! ### C46: the binomial sampler -/

/-- **C46 (range).** Every element of a hybrid binomial draw lies between zero and its count, whatever the draws, the
probability and the way of rounding. -/
theorem C46_range (rnd : ℝ → ℤ) (threshold : Nat) (r : Rng m) (p : Fin m → ℝ) (n : Fin m → ℤ) (s : St) (i : Fin m) :
    0 ≤ (binomialHybrid rnd threshold r p n s).1 i ∧ (binomialHybrid rnd threshold r p n s).1 i ≤ max (n i) 0 := by
  exact hybrid_range rnd threshold (p i) (n i) _ _

/-- **C46 (limits).** The draw is zero for a probability or a count that is not positive, and the count for a probability of
one or more. -/
theorem C46_limits (rnd : ℝ → ℤ) (threshold : Nat) (r : Rng m) (p : Fin m → ℝ) (n : Fin m → ℤ) (s : St) (i : Fin m) :
    (p i ≤ 0 → (binomialHybrid rnd threshold r p n s).1 i = 0) ∧ (n i ≤ 0 → (binomialHybrid rnd threshold r p n s).1 i = 0) ∧
      (1 ≤ p i → 0 ≤ n i → (binomialHybrid rnd threshold r p n s).1 i = n i) := by
  refine ⟨fun h => ?_, fun h => ?_, fun h h' => ?_⟩
  · change hybrid rnd threshold (p i) (n i) _ _ = 0
    rw [hybrid_eq, if_pos h, if_neg (by linarith : ¬ 1 ≤ p i)]
    simp
  · change hybrid rnd threshold (p i) (n i) _ _ = 0
    rw [hybrid_eq, if_pos h]
  · change hybrid rnd threshold (p i) (n i) _ _ = n i
    rw [hybrid_eq, if_pos h]
    split
    · omega
    · rfl

/-- **C46 (small counts).** For a count up to the threshold the draw is the number of successes among the first `n` trials
drawn for the element, a trial succeeding when its uniform draw is below the probability. -/
theorem C46_small_count (rnd : ℝ → ℤ) (threshold : Nat) (r : Rng m) (p : Fin m → ℝ) (n : Fin m → ℤ) (s : St) (i : Fin m)
    (k : Nat) (hk : n i = k) (ht : k ≤ threshold)
    (hu : ∀ key j, 0 ≤ r.trials key i j ∧ r.trials key i j < 1) :
    ∃ key ∈ (binomialHybrid rnd threshold r p n s).2.used,
      (binomialHybrid rnd threshold r p n s).1 i = ((Finset.range k).filter (fun j => r.trials key i j < p i)).card := by
  refine ⟨s.key.child 3 2, by simp [binomialHybrid, split3, draw], ?_⟩
  by_cases h0 : p i ≤ 0
  · rw [(C46_limits rnd threshold r p n s i).1 h0, Finset.filter_false_of_mem]
    · rfl
    · intro j _
      have := (hu (s.key.child 3 2) j).1
      linarith
  · by_cases h1 : 1 ≤ p i
    · rw [(C46_limits rnd threshold r p n s i).2.2 h1 (by omega), Finset.filter_true_of_mem, Finset.card_range, hk]
      intro j _
      have := (hu (s.key.child 3 2) j).2
      linarith
    · change hybrid rnd threshold (p i) (n i) _ _ = _
      rw [hk, hybrid_small rnd threshold k (p i) _ _ ht (not_le.1 h0) (not_le.1 h1)]

/-- **C46 (distribution).** With independent uniform trials the small-count path has the binomial distribution. -/
theorem C46_distribution (rnd : ℝ → ℤ) (threshold n k : Nat) (p z : ℝ) (ht : n ≤ threshold) (h0 : 0 ≤ p) (h1 : p ≤ 1) :
    trialsLaw threshold {u | hybrid rnd threshold p n z (padded u) = k}
      = ENNReal.ofReal (n.choose k * p ^ k * (1 - p) ^ (n - k)) := by
  haveI : IsProbabilityMeasure (trialsLaw threshold) := by
    change IsProbabilityMeasure (Measure.pi (fun _ : Fin threshold => unif))
    infer_instance
  rcases h0.eq_or_lt with h0' | h0'
  · have hz : ∀ u, hybrid rnd threshold p n z u = 0 := by
      intro u
      rw [hybrid_eq, if_pos h0'.symm.le, if_neg (by linarith : ¬ 1 ≤ p)]
      simp
    simp only [hz]
    subst h0'
    by_cases hk : k = 0
    · subst hk
      simp
    · have : ¬ ((0 : ℤ) = k) := by omega
      simp [this, hk]
  · rcases h1.eq_or_lt with h1' | h1'
    · have hz : ∀ u, hybrid rnd threshold p n z u = n := by
        intro u
        rw [hybrid_eq, if_pos h1'.symm.le]
        split
        · omega
        · rfl
      simp only [hz]
      subst h1'
      by_cases hk : n = k
      · subst hk
        simp
      · have : ¬ ((n : ℤ) = k) := by omega
        rcases Nat.lt_or_gt_of_ne hk with h | h
        · simp [this, Nat.choose_eq_zero_of_lt h]
        · have : n - k ≠ 0 := by omega
          simp [hk, this]
    · have he : ∀ u : Fin threshold → ℝ, (hybrid rnd threshold p n z (padded u) = (k : ℤ))
          ↔ ((Finset.range n).filter (fun j => padded u j < p)).card = k := by
        intro u
        rw [hybrid_small rnd threshold n p z _ ht h0' h1']
        omega
      simp only [he]
      exact count_law p h0 h1 threshold n k ht

/-- **C46 (fallback).** The normal approximation used where `jax.random` has no binomial stays in range too, for every way of
rounding that is monotone and keeps integers. -/
theorem C46_fallback_range (rnd : ℝ → ℤ) (hm : Monotone rnd) (hi : ∀ k : ℤ, rnd k = k) (r : Rng m) (p : Fin m → ℝ)
    (n : Fin m → ℤ) (s : St) (i : Fin m) (hn : 0 ≤ n i) :
    0 ≤ (binomialFallback rnd true r p n s).1 i ∧ (binomialFallback rnd true r p n s).1 i ≤ n i := by
  change 0 ≤ dispatch rnd true r _ (p i) (n i) ∧ dispatch rnd true r _ (p i) (n i) ≤ n i
  unfold dispatch
  rw [if_pos rfl]
  unfold normalApprox
  have hn' : (0 : ℝ) ≤ (n i : ℝ) := by exact_mod_cast hn
  constructor
  · rw [← hi 0]
    apply hm
    rw [Int.cast_zero]
    exact le_min (le_max_right _ _) hn'
  · conv_rhs => rw [← hi (n i)]
    exact hm (min_le_right _ _)

/-- Three trials of which two succeed: the draw is two. -/
example : hybrid Int.floor 128 (1 / 2) 3 0 (fun j => if j = 1 then 3 / 4 else 1 / 4) = 2 := by
  rw [show ((3 : ℤ)) = ((3 : Nat) : ℤ) from rfl, hybrid_small _ _ _ _ _ _ (by norm_num) (by norm_num) (by norm_num)]
  have : (Finset.range 3).filter (fun j => (if j = 1 then (3 : ℝ) / 4 else 1 / 4) < 1 / 2) = {0, 2} := by
    ext j
    simp only [Finset.mem_filter, Finset.mem_range, Finset.mem_insert, Finset.mem_singleton]
    constructor
    · rintro ⟨h, h'⟩
      by_cases hj : j = 1
      · rw [if_pos hj] at h'
        norm_num at h'
      · omega
    · rintro (rfl | rfl) <;> norm_num
  rw [this]
  rfl

/-- `Int.floor` is one of the roundings the fallback theorem covers. -/
example : Monotone (Int.floor : ℝ → ℤ) ∧ ∀ k : ℤ, ⌊(k : ℝ)⌋ = k := ⟨Int.floor_mono, Int.floor_intCast⟩

/-! ### C47: keys are not reused -/

/-- **C47 (programs, part of the property).** A program that threads its key through any of the samplers but `twohalfnorm`, its
later calls depending on earlier values in any way, draws from every key at most once, and the key it holds is never one it has
drawn from nor derived from one. -/
theorem C47_program_partial (r : ∀ m, Rng m) (p : Prog) (hp : p.Avoids) (key : Key) :
    (p.run r ⟨key, []⟩).used.Nodup ∧ ∀ u ∈ (p.run r ⟨key, []⟩).used, ¬ u <:+ (p.run r ⟨key, []⟩).key := by
  have h : Inv ⟨key, []⟩ := ⟨List.nodup_nil, by simp⟩
  have h' := prog_inv r p hp _ h
  exact ⟨h'.nodup, fun u hu => (h'.apart u hu).1⟩

/-- **C47 (the list of used keys is complete).** What a sampler returns depends on the source of randomness only through the
keys that are listed as used. -/
theorem C47_used_keys_complete (r r' : Rng m) (c : Call m) (s : St) (h : ∀ k ∈ (c.run r s).2.used, Agree r r' k) :
    c.run r s = c.run r' s := call_agree r r' c s h

/-- **C47 (negation).** One call of `twohalfnorm` draws twice from the same key. -/
theorem C47_twohalfnorm_reuses (r : Rng m) (mu sp sn : Fin m → ℝ) (key : Key) :
    ¬ (twohalfnorm r mu sp sn ⟨key, []⟩).2.used.Nodup := by
  simp [twohalfnorm, split2, draw]

/-- A program that draws a Poisson number and then a binomial and a generalized Poisson one whose arguments depend on it. -/
noncomputable def exProg : Prog :=
  .call (m := 1) (.poisson (fun _ => 5)) (fun o =>
    .call (m := 1) (.binomialHybrid Int.floor 128 (fun _ => 0.5) (fun i => ⌊(o.getD (fun _ => 0)) i⌋)) (fun o' =>
      .call (m := 1) (.generalizedPoisson 10 (o'.getD (fun _ => 0)) (fun _ => 0.1)) (fun _ => .done)))

/-- It avoids the two-half-normal sampler. -/
example : exProg.Avoids :=
  .call _ _ rfl (fun _ => .call _ _ rfl (fun _ => .call _ _ rfl (fun _ => .done)))

/-! ### C48: the two-half-normal distribution -/

/-- **C48 (density).** For positive sigmas the log density is defined everywhere, is continuous, has its only maximum at `mu`
and its exponential integrates to one; otherwise it raises. -/
theorem C48_density (mu sp sn : ℝ) (hp : 0 < sp) (hn : 0 < sn) :
    ∃ l : ℝ → ℝ, (∀ x, thnLogpdf x mu sp sn = .ok (l x)) ∧ Continuous l ∧ (∀ x, x ≠ mu → l x < l mu) ∧
      ∫ x, Real.exp (l x) = 1 := by
  refine ⟨ell mu sp sn, fun x => thnLogpdf_ok mu sp sn x hp hn, ell_continuous mu sp sn,
    fun x hx => ell_lt_max mu sp sn x hp hn hx, ?_⟩
  have h := congrArg (fun μ : Measure ℝ => μ Set.univ) (thn_law mu sp sn hp hn)
  rw [Measure.map_apply (thnValue_measurable mu sp sn) MeasurableSet.univ, withDensity_apply _ MeasurableSet.univ,
    Set.preimage_univ, measure_univ, Measure.restrict_univ] at h
  rw [integral_eq_lintegral_of_nonneg_ae (Filter.Eventually.of_forall (fun x => (Real.exp_pos _).le))
    (((ell_continuous mu sp sn).rexp).aestronglyMeasurable), ← h]
  simp

/-- **C48 (density, errors).** A sigma that is not positive raises. -/
theorem C48_density_error (x mu sp sn : ℝ) (h : ¬ (0 < sp ∧ 0 < sn)) : thnLogpdf x mu sp sn = .error .assertionError := by
  unfold thnLogpdf
  rw [if_neg h]

/-- **C48 (the density is the one of the prior and of literature likelihoods).** -/
theorem C48_density_of_priors (x mu sp sn : ℝ) :
    Parameter.thnLogpdf (.fin x) mu sp sn = (thnLogpdf x mu sp sn).map XF.fin := by
  unfold Parameter.thnLogpdf thnLogpdf
  by_cases h : 0 < sp ∧ 0 < sn
  · rw [if_pos h, if_pos h]
    have hpi : 0 < √(2 * Real.pi) := Real.sqrt_pos.2 (by positivity)
    have hnorm : 0 < 2 / (sp + sn) / √(2 * Real.pi) := by
      have h1 := h.1
      have h2 := h.2
      positivity
    have h1 : sp ^ 2 ≠ 0 := by
      have := h.1
      positivity
    have h2 : sn ^ 2 ≠ 0 := by
      have := h.2
      positivity
    simp only [XF.fin_sub_fin, XF.fin_mul_fin, XF.neg_fin, XF.fin_lt_fin, XF.fin_div_fin_of_ne _ h1,
      XF.fin_div_fin_of_ne _ h2, XF.fin_div_fin_of_ne _ (two_ne_zero), XF.log_fin_pos hnorm, Except.map]
    split
    · rw [XF.fin_add_fin, ← pow_two]
    · rw [XF.fin_add_fin, ← pow_two]
  · rw [if_neg h, if_neg h]
    rfl

/-- **C48 (array sampler, part of the property).** The values of `TwoHalfNorm.rvs` with an output shape, drawn from independent
uniform and normal numbers, follow the density. -/
theorem C48_rvs_law_partial (mu sp sn : ℝ) (hp : 0 < sp) (hn : 0 < sn) :
    ∃ v : ℝ → ℝ → ℝ, (∀ u z, thnRvs mu sp sn u z = .ok (v u z)) ∧
      ∃ l : ℝ → ℝ, (∀ x, thnLogpdf x mu sp sn = .ok (l x)) ∧
        ((volume.restrict (Set.Ico (0 : ℝ) 1)).prod (gaussianReal 0 1)).map (fun w => v w.1 w.2)
          = volume.withDensity (fun x => ENNReal.ofReal (Real.exp (l x))) :=
  ⟨thnValue mu sp sn, fun u z => by unfold thnRvs; rw [if_pos ⟨hp, hn⟩], ell mu sp sn,
    fun x => thnLogpdf_ok mu sp sn x hp hn, thn_law mu sp sn hp hn⟩

/-- **C48 (negation for the vectorised sampler).** `jax.random` makes the uniform and the normal number of one key from the same
bits, the normal one being an increasing function `g` of the uniform one that is not negative at one half. With
`sigma_pos > sigma_neg` a draw then never falls in an interval just below `mu`, which has positive probability under the
density. -/
theorem C48_vectorised_gap (r : Rng m) (g : ℝ → ℝ) (hu : ∀ k i, 0 ≤ r.uniform k i ∧ r.uniform k i < 1)
    (hg : StrictMonoOn g (Set.Ico 0 1)) (hh : 0 ≤ g (1 / 2)) (hz : ∀ k i, r.normal k i = g (r.uniform k i))
    (mu sp sn : Fin m → ℝ) (i : Fin m) (hn : 0 < sn i) (hs : sn i < sp i) :
    ∃ d > 0, (∀ s, ¬ (mu i - d < (twohalfnorm r mu sp sn s).1 i ∧ (twohalfnorm r mu sp sn s).1 i < mu i)) ∧
      ∃ l : ℝ → ℝ, (∀ x, thnLogpdf x (mu i) (sp i) (sn i) = .ok (l x)) ∧
        0 < (volume.withDensity (fun x => ENNReal.ofReal (Real.exp (l x)))) (Set.Ioo (mu i - d) (mu i)) := by
  have hp : 0 < sp i := by linarith
  set P := sp i / (sp i + sn i) with hP
  have hsum : 0 < sp i + sn i := by linarith
  have hPhalf : 1 / 2 < P := by
    rw [hP, lt_div_iff₀ hsum]
    linarith
  have hP1 : P < 1 := by
    rw [hP, div_lt_one hsum]
    linarith
  have hgP : 0 < g P := lt_of_le_of_lt hh (hg ⟨by norm_num, by norm_num⟩ ⟨by linarith, hP1⟩ hPhalf)
  have hd : 0 < g P * sn i := mul_pos hgP hn
  refine ⟨g P * sn i, hd, ?_, ell (mu i) (sp i) (sn i), fun x => thnLogpdf_ok _ _ _ x hp hn, ?_⟩
  · rintro s ⟨h1, h2⟩
    have hv : (twohalfnorm r mu sp sn s).1 i
        = thnValue (mu i) (sp i) (sn i) (r.uniform (s.key.child 2 1) i) (r.normal (s.key.child 2 1) i) := rfl
    rw [hv, hz] at h1 h2
    obtain ⟨hu0, hu1⟩ := hu (s.key.child 2 1) i
    generalize r.uniform (s.key.child 2 1) i = u at *
    by_cases hlt : u < sp i / (sp i + sn i)
    · rw [thnValue_pos hlt] at h2
      have : 0 ≤ |g u| * sp i := mul_nonneg (abs_nonneg _) hp.le
      linarith
    · rw [thnValue_neg hlt] at h1
      have hge : P ≤ u := not_lt.1 hlt
      have hgu : g P ≤ g u := (hg.le_iff_le ⟨by linarith, hP1⟩ ⟨hu0, hu1⟩).2 hge
      rw [abs_of_pos (by linarith)] at h1
      nlinarith
  · rw [withDensity_apply _ measurableSet_Ioo]
    rw [setLIntegral_pos_iff (by have := ell_measurable (mu i) (sp i) (sn i); fun_prop)]
    have : (Function.support (fun x => ENNReal.ofReal (Real.exp (ell (mu i) (sp i) (sn i) x)))) = Set.univ := by
      ext x
      simp [Function.mem_support, Real.exp_pos]
    rw [this, Set.univ_inter, Real.volume_Ioo]
    rw [ENNReal.ofReal_pos]
    linarith

/-- A source of randomness as in the theorem: the normal number is an increasing function of the uniform one. -/
example : ∃ (r : Rng 1) (g : ℝ → ℝ), (∀ k i, 0 ≤ r.uniform k i ∧ r.uniform k i < 1) ∧ StrictMonoOn g (Set.Ico 0 1) ∧
    0 ≤ g (1 / 2) ∧ ∀ k i, r.normal k i = g (r.uniform k i) :=
  ⟨⟨fun _ _ => 1 / 4, fun _ _ => 3 / 4, fun _ _ _ => 0, fun _ _ _ => 0, fun _ _ _ => 0, fun _ _ _ => false, fun _ _ _ _ => 0,
    fun _ => 0, fun _ _ _ => 0⟩, fun x => x - 1 / 2, fun _ _ => ⟨by norm_num, by norm_num⟩,
    fun a _ b _ h => by simpa using h, by norm_num, fun _ _ => by norm_num⟩

/-! ### C49: truncated normal and generalized Poisson -/

/-- **C49 (truncated normal).** With both bounds in order every value lies between them, whatever the draw; with one bound
missing the other one holds. -/
theorem C49_truncated (r : Rng m) (mean std vmin vmax : Fin m → ℝ) (s : St) (i : Fin m) :
    (vmin i ≤ vmax i → vmin i ≤ (truncateNormal r mean std (some vmin) (some vmax) s).1 i) ∧
      (truncateNormal r mean std (some vmin) (some vmax) s).1 i ≤ vmax i ∧
      vmin i ≤ (truncateNormal r mean std (some vmin) none s).1 i ∧
      (truncateNormal r mean std none (some vmax) s).1 i ≤ vmax i := by
  refine ⟨fun h => ?_, ?_, ?_, ?_⟩
  · exact le_min (le_max_right _ _) h
  · exact min_le_right _ _
  · exact le_max_right _ _
  · exact min_le_right _ _

/-- **C49 (inside the bounds).** A normal draw that is already inside the bounds is returned unchanged. -/
theorem C49_truncated_inside (r : Rng m) (mean std vmin vmax : Fin m → ℝ) (s : St) (i : Fin m)
    (h1 : vmin i ≤ (normal r mean std s).1 i) (h2 : (normal r mean std s).1 i ≤ vmax i) :
    (truncateNormal r mean std (some vmin) (some vmax) s).1 i = (normal r mean std s).1 i := by
  change min (max ((normal r mean std s).1 i) (vmin i)) (vmax i) = _
  rw [max_eq_left h1, min_eq_left h2]

/-- **C49 (generalized Poisson).** When the loop ends, every element is the sum of all generations of a branching process: the
first generation is drawn with expectation `lam * (1 - eta)`, each later one with `eta` times the one before, every generation
from its own key, up to the first generation that is zero everywhere. So it is at least the first generation. -/
theorem C49_generalized (fuel : Nat) (r : Rng m) (lam eta : Fin m → ℝ) (s : St) (v : Fin m → Nat)
    (h : (generalizedPoisson fuel r lam eta s).1 = some v) :
    ∃ ks : Nat → Key, ∃ K, (∀ i, generation r lam eta ks K i = 0) ∧ (∀ j < K, ∃ i, 0 < generation r lam eta ks j i) ∧
      (∀ i, v i = ∑ j ∈ Finset.range (K + 1), generation r lam eta ks j i) ∧ ∀ i, generation r lam eta ks 0 i ≤ v i := by
  obtain ⟨K, h1, h2, h3⟩ := gpLoop_some r eta fuel _ _ _ v h
  refine ⟨seedAt s.key, K, ?_, ?_, ?_, ?_⟩
  · intro i
    rw [generation_eq]
    exact h1 i
  · intro j hj
    obtain ⟨i, hi⟩ := h2 j hj
    exact ⟨i, by rw [generation_eq]; exact hi⟩
  · intro i
    rw [h3 i, Finset.sum_range_succ']
    simp only [generation_eq]
    rw [add_comm]
    rfl
  · intro i
    rw [h3 i]
    exact Nat.le_add_right _ _

/-- **C49 (elements do not disturb each other).** Since a Poisson draw with expectation zero is zero, an element whose process
has died out adds nothing while others go on: the sum may be cut off at its own last generation. -/
theorem C49_generalized_elementwise (fuel : Nat) (r : Rng m) (lam eta : Fin m → ℝ) (s : St) (v : Fin m → Nat)
    (hz : ∀ k l i, l i = 0 → r.poisson k l i = 0) (h : (generalizedPoisson fuel r lam eta s).1 = some v) :
    ∃ ks : Nat → Key, ∀ i L, generation r lam eta ks L i = 0 →
      v i = ∑ j ∈ Finset.range (L + 1), generation r lam eta ks j i := by
  obtain ⟨ks, K, h1, -, h3, -⟩ := C49_generalized fuel r lam eta s v h
  refine ⟨ks, fun i L hL => ?_⟩
  have hstay : ∀ L d, generation r lam eta ks L i = 0 → generation r lam eta ks (L + d) i = 0 := by
    intro L d h0
    induction d with
    | zero => exact h0
    | succ d ih =>
      change r.poisson (ks (L + d + 1)) (fun i => eta i * (generation r lam eta ks (L + d) i : ℝ)) i = 0
      apply hz
      rw [ih]
      simp
  have hext : ∀ L d, generation r lam eta ks L i = 0 →
      ∑ j ∈ Finset.range (L + d + 1), generation r lam eta ks j i = ∑ j ∈ Finset.range (L + 1), generation r lam eta ks j i := by
    intro L d h0
    induction d with
    | zero => rfl
    | succ d ih =>
      rw [show L + (d + 1) + 1 = (L + d + 1) + 1 by omega, Finset.sum_range_succ, ih,
        show L + d + 1 = L + (d + 1) by omega, hstay L (d + 1) h0, add_zero]
  rw [h3 i]
  rcases le_total K L with hl | hl
  · obtain ⟨d, rfl⟩ := Nat.exists_eq_add_of_le hl
    exact (hext K d (h1 i)).symm
  · obtain ⟨d, rfl⟩ := Nat.exists_eq_add_of_le hl
    exact hext L d hL

/-- **C49 (the loop ends).** When some generation is zero everywhere the loop ends. -/
theorem C49_generalized_ends (r : Rng m) (lam eta : Fin m → ℝ) (s : St) :
    ∃ ks : Nat → Key, ∀ K, (∀ i, generation r lam eta ks K i = 0) →
      ∃ v, (generalizedPoisson (K + 1) r lam eta s).1 = some v := by
  refine ⟨seedAt s.key, fun K hK => ?_⟩
  apply gpLoop_ends
  intro i
  have := hK i
  rw [generation_eq] at this
  exact this

/-- Non-vacuity of C49: a source whose Poisson draws are the expectation rounded down and whose normal draws are one.  Two elements,
of which the second dies out a generation before the first. -/
example : ∃ r : Rng 2, (∀ k l i, l i = 0 → r.poisson k l i = 0) ∧
    (∀ s, ∃ v, (generalizedPoisson 3 r ![4, 3] ![1 / 2, 1 / 3] s).1 = some v ∧ v 0 = 3 ∧ v 1 = 2) ∧
    ∀ s, (truncateNormal r ![0, 0] ![1, 5] (some ![0, 0]) (some ![2, 2]) s).1 0 = 1 ∧
      (truncateNormal r ![0, 0] ![1, 5] (some ![0, 0]) (some ![2, 2]) s).1 1 = 2 := by
  let r : Rng 2 := ⟨fun _ _ => 1, fun _ _ => 0, fun _ _ _ => 0, fun _ l i => ⌊l i⌋₊, fun _ _ _ => 0, fun _ _ _ => false,
    fun _ _ _ _ => 0, fun _ => 0, fun _ _ _ => 0⟩
  have pair : ∀ (f : Fin 2 → ℕ) (a b : ℕ), f 0 = a → f 1 = b → f = ![a, b] := by
    rintro f _ _ rfl rfl
    funext i
    fin_cases i <;> rfl
  have draw : ∀ l s, (poisson r l s).1 = fun i => ⌊l i⌋₊ := fun _ _ => rfl
  have d0 : (fun i : Fin 2 => ⌊(![4, 3] : Fin 2 → ℝ) i * (1 - (![1 / 2, 1 / 3] : Fin 2 → ℝ) i)⌋₊) = ![2, 2] := by
    apply pair <;> norm_num
  have d1 : (fun i : Fin 2 => ⌊(![1 / 2, 1 / 3] : Fin 2 → ℝ) i * (((![2, 2] : Fin 2 → ℕ) i : ℕ) : ℝ)⌋₊) = ![1, 0] := by
    apply pair <;> norm_num [Nat.floor_eq_iff]
  have d2 : (fun i : Fin 2 => ⌊(![1 / 2, 1 / 3] : Fin 2 → ℝ) i * (((![1, 0] : Fin 2 → ℕ) i : ℕ) : ℝ)⌋₊) = ![0, 0] := by
    apply pair <;> norm_num
  refine ⟨r, ?_, ?_, ?_⟩
  · intro k l i h
    change ⌊l i⌋₊ = 0
    rw [h]
    simp
  · intro s
    refine ⟨![3, 2], ?_, rfl, rfl⟩
    unfold generalizedPoisson
    have a0 := congrFun d0
    have a1 := congrFun d1
    have a2 := congrFun d2
    beta_reduce at a0 a1 a2
    simp only [gpLoop, draw, a0, a1, a2]
    rw [if_pos ⟨0, by simp⟩, if_pos ⟨0, by simp⟩, if_neg (by rintro ⟨i, hi⟩; fin_cases i <;> simp at hi)]
    simp only [Option.some.injEq]
    apply pair <;> rfl
  · intro s
    constructor
    · change min (max ((1 : ℝ) * 1 + 0) 0) 2 = 1
      norm_num
    · change min (max ((1 : ℝ) * 5 + 0) 0) 2 = 2
      norm_num

/-! ### C67: the scalar two-half-normal sampler -/

/-- **C67 (negation).** Without an output shape and with Python numbers `TwoHalfNorm.rvs` never returns a value below `mu`,
although the density gives the values below `mu` the probability `sigma_neg / (sigma_pos + sigma_neg)`. -/
theorem C67_scalar_never_below (mu sp sn u z x : ℝ) (h : thnRvsScalar mu sp sn u z = .ok x) : mu ≤ x := by
  unfold thnRvsScalar at h
  by_cases hs : 0 < sp ∧ 0 < sn
  · rw [if_pos hs] at h
    simp only [Except.ok.injEq] at h
    rw [← h]
    obtain ⟨hp, hn⟩ := hs
    have h1 : 0 ≤ |z| * sp := mul_nonneg (abs_nonneg z) hp.le
    have h2 : 0 ≤ |z| * sn := mul_nonneg (abs_nonneg z) hn.le
    by_cases hb : u < sp / (sp + sn)
    · simp only [hb, decide_true, pyInvert]
      norm_num
      linarith
    · simp only [hb, decide_false, pyInvert]
      norm_num
      linarith
  · rw [if_neg hs] at h
    cases h

/-- **C67 (with numpy numbers, part of the property).** In the other calling conventions a value is below `mu` exactly when the
uniform draw chose the negative half and the normal draw is not zero. -/
theorem C67_below_partial (mu sp sn u z x : ℝ) (h : thnRvs mu sp sn u z = .ok x) :
    x < mu ↔ sp / (sp + sn) ≤ u ∧ z ≠ 0 := by
  unfold thnRvs at h
  by_cases hs : 0 < sp ∧ 0 < sn
  · rw [if_pos hs] at h
    simp only [Except.ok.injEq] at h
    rw [← h]
    obtain ⟨hp, hn⟩ := hs
    by_cases hb : u < sp / (sp + sn)
    · rw [thnValue_pos hb]
      have h1 : 0 ≤ |z| * sp := mul_nonneg (abs_nonneg z) hp.le
      constructor
      · intro hlt
        linarith
      · rintro ⟨hc, -⟩
        linarith
    · rw [thnValue_neg hb]
      constructor
      · intro hlt
        refine ⟨not_lt.1 hb, ?_⟩
        rintro rfl
        simp at hlt
      · rintro ⟨-, hz⟩
        have : 0 < |z| * sn := mul_pos (abs_pos.2 hz) hn
        linarith
  · rw [if_neg hs] at h
    cases h

/-- A scalar draw that should be below the centre is above it. -/
example : thnRvsScalar 0 1 1 (3 / 4) 1 = .ok 1 ∧ thnRvs 0 1 1 (3 / 4) 1 = .ok (-1) := by
  constructor
  · unfold thnRvsScalar
    norm_num [pyInvert]
  · unfold thnRvs thnValue
    norm_num

end Verif.Randgen
