/-
Repeated evaluations of the log posterior with independent keys: means, spreads, limits.
-/
import Verif.Lemmas.Order
import Mathlib.Probability.StrongLaw
import Mathlib.Probability.Independence.InfinitePi
import Mathlib.MeasureTheory.Function.LpSeminorm.CompareExp
import Mathlib.Analysis.Convex.Integral
import Mathlib.Analysis.Convex.SpecificFunctions.Basic
import Mathlib.MeasureTheory.Integral.DominatedConvergence

namespace Verif.Repeats
open Verif MeasureTheory ProbabilityTheory Topology
open Filter (Tendsto atTop)
open scoped ENNReal

section
variable {K : Type} {W : K → ℝ}

/-- The mean of the values for the first `n` keys. -/
noncomputable def mean (W : K → ℝ) (n : Nat) (keys : Nat → K) : ℝ := (∑ i ∈ Finset.range n, W (keys i)) / n

theorem sum_fin (W : K → ℝ) (keys : Nat → K) (n : Nat) :
    XF.sum ((List.range n).map fun i => XF.fin (W (keys i))) = .fin (∑ i ∈ Finset.range n, W (keys i)) := by
  have : ((List.range n).map fun i => XF.fin (W (keys i))) = ((List.range n).map fun i => W (keys i)).map XF.fin := by simp
  rw [this, XF.sum_map_fin]
  congr 1

theorem repeated_mean {c : Ctx.Ctx K} {batch : Int} {l : XF} (h1 : ∀ k, Ctx.once c batch k l = .ok (.fin (W k))) {n : Nat} (hn : 1 ≤ n)
    (keys : Nat → K) : Ctx.repeated c batch n keys l = .ok (.fin (mean W n keys)) := by
  unfold Ctx.repeated
  split
  · have h2 : (List.range ((n : Int).toNat)).mapM (fun i => Ctx.once c batch (keys i) l)
        = .ok ((List.range ((n : Int).toNat)).map fun i => XF.fin (W (keys i))) := by
      refine (mapM_ok_iff _ _ _).2 ?_
      rw [List.forall₂_map_right_iff]
      exact List.forall₂_same.2 fun i _ => h1 _
    rw [h2]
    simp only [bind, Except.bind, pure, Except.pure, Int.toNat_natCast, sum_fin, List.length_map, List.length_range]
    have hn0 : (n : ℝ) ≠ 0 := by exact_mod_cast (by omega : n ≠ 0)
    congr 1
    show XF.div _ _ = _
    simp [XF.div, hn0, mean]
  · have : n = 1 := by omega
    subst this
    rw [h1]
    simp [mean]

/-- The value for any number of repeats from the values for one. -/
theorem posterior_mean {c : Ctx.Ctx K} {sig : Parameter.Solver} {order : List String} {params : Parameter.Keys} {batch : Int} {lp : XF}
    (hone : ∀ keys, (Ctx.logPosterior sig order keys c params batch 1).2 = .ok (.fin (W (keys 0)), lp)) {n : Nat} (hn : 1 ≤ n)
    (keys : Nat → K) : (Ctx.logPosterior sig order keys c params batch n).2 = .ok (.fin (mean W n keys), lp) := by
  unfold Ctx.logPosterior at hone ⊢
  cases hset : Parameter.setParameter c.pm params .none with
  | mk pm r =>
    rw [hset] at hone
    cases r with
    | error e => have := hone keys; simp at this
    | ok u =>
      simp only [bind, Except.bind] at hone ⊢
      cases hlp : Parameter.logPriorOver sig pm order with
      | error e => rw [hlp] at hone; have := hone keys; simp at this
      | ok l =>
        rw [hlp] at hone
        simp only at hone ⊢
        by_cases hf : l.isFinite
        · simp only [hf, not_true_eq_false, if_false] at hone ⊢
          have h1 : ∀ k, Ctx.once { c with pm := pm } batch k l = .ok (.fin (W k)) ∧ l = lp := by
            intro k
            have := hone fun _ => k
            simp only [Ctx.repeated, lt_self_iff_false, if_false] at this
            split at this
            · cases this
            · rename_i v hv
              rw [hv]
              simp only [pure, Except.pure, Except.ok.injEq, Prod.mk.injEq] at this
              exact ⟨by rw [this.1], this.2⟩
          rw [repeated_mean (fun k => (h1 k).1) hn keys, (h1 (keys 0)).2]
          rfl
        · have := hone keys
          simp [hf, pure, Except.pure] at this

variable [MeasurableSpace K] (ρ : Measure K) [IsProbabilityMeasure ρ]

/-- The law of independent keys. -/
noncomputable abbrev keysLaw : Measure (Nat → K) := Measure.infinitePi fun _ : Nat => ρ

theorem eval_law (i : Nat) : MeasurePreserving (fun keys : Nat → K => keys i) (keysLaw ρ) ρ := measurePreserving_eval_infinitePi _ i

theorem indep (hW : Measurable W) : Pairwise fun i j => IndepFun (fun keys : Nat → K => W (keys i)) (fun keys => W (keys j)) (keysLaw ρ) := by
  intro i j hij
  exact (iIndepFun_infinitePi (P := fun _ : Nat => ρ) (X := fun _ => W) fun _ => hW).indepFun hij

theorem mean_integral (hW : Measurable W) (hi : Integrable W ρ) {n : Nat} (hn : 1 ≤ n) :
    ∫ keys, mean W n keys ∂(keysLaw ρ) = ∫ k, W k ∂ρ := by
  unfold mean
  have hint : ∀ i ∈ Finset.range n, Integrable (fun keys : Nat → K => W (keys i)) (keysLaw ρ) := fun i _ =>
    ((eval_law ρ i).integrable_comp hi.aestronglyMeasurable).2 hi
  rw [integral_div, integral_finsetSum _ hint]
  have : ∀ i : Nat, ∫ keys, W (keys i) ∂(keysLaw ρ) = ∫ k, W k ∂ρ := fun i => by
    rw [← (eval_law ρ i).map_eq, integral_map (measurable_pi_apply i).aemeasurable]
    · rw [(eval_law ρ i).map_eq]
    · rw [(eval_law ρ i).map_eq]; exact hi.aestronglyMeasurable
  simp only [this, Finset.sum_const, Finset.card_range, nsmul_eq_mul]
  have hn0 : (n : ℝ) ≠ 0 := by exact_mod_cast (by omega : n ≠ 0)
  field_simp

theorem mean_variance (hW : Measurable W) (h2 : MemLp W 2 ρ) {n : Nat} (hn : 1 ≤ n) :
    variance (mean W n) (keysLaw ρ) = variance W ρ / n := by
  have hv : ∀ i : Nat, variance (fun keys : Nat → K => W (keys i)) (keysLaw ρ) = variance W ρ := fun i => by
    have := (eval_law ρ i).variance_fun_comp hW.aemeasurable
    exact this
  have hs := IndepFun.variance_sum (μ := keysLaw ρ) (X := fun i (keys : Nat → K) => W (keys i)) (s := Finset.range n)
    (fun i _ => h2.comp_measurePreserving (eval_law ρ i)) fun i _ j _ hij => indep ρ hW hij
  have e : mean W n = fun keys : Nat → K => (n : ℝ)⁻¹ * (∑ i ∈ Finset.range n, fun keys : Nat → K => W (keys i)) keys := by
    funext keys
    simp [mean, div_eq_inv_mul]
  rw [e, variance_const_mul, hs]
  simp only [hv, Finset.sum_const, Finset.card_range, nsmul_eq_mul]
  have hn0 : (n : ℝ) ≠ 0 := by exact_mod_cast (by omega : n ≠ 0)
  field_simp

theorem mean_limit (hW : Measurable W) (hi : Integrable W ρ) :
    ∀ᵐ keys ∂(keysLaw ρ), Tendsto (fun n => mean W n keys) atTop (𝓝 (∫ k, W k ∂ρ)) := by
  have h := strong_law_ae_real (μ := keysLaw ρ) (fun i keys => W (keys i))
    (((eval_law ρ 0).integrable_comp hi.aestronglyMeasurable).2 hi) (indep ρ hW) fun i => by
      refine ⟨(hW.comp (measurable_pi_apply i)).aemeasurable, (hW.comp (measurable_pi_apply 0)).aemeasurable, ?_⟩
      have e : ∀ i : Nat, (keysLaw ρ).map (fun keys => W (keys i)) = ρ.map W := fun i => by
        conv_rhs => rw [← (eval_law ρ i).map_eq]
        rw [Measure.map_map hW (measurable_pi_apply i)]
        rfl
      rw [e, e]
  have e0 : ∫ keys, W (keys 0) ∂(keysLaw ρ) = ∫ k, W k ∂ρ := by
    have := mean_integral ρ hW hi (n := 1) le_rfl
    simpa [mean] using this
  rw [e0] at h
  exact h

/-- The mean of a product over the keys. -/
theorem prod_keys {f : K → ℝ≥0∞} (hf : Measurable f) (n : Nat) :
    ∫⁻ keys, ∏ i ∈ Finset.range n, f (keys i) ∂(keysLaw ρ) = (∫⁻ k, f k ∂ρ) ^ n := by
  induction n with
  | zero => simp
  | succ n ih =>
    have hm : ∀ n, Measurable fun keys : Nat → K => ∏ i ∈ Finset.range n, f (keys i) := fun n =>
      Finset.measurable_prod _ fun i _ => hf.comp (measurable_pi_apply i)
    have hc : Measurable fun q : K × (Nat → K) => ∏ i ∈ Finset.range (n + 1), f (Order.consStream q i) :=
      (hm _).comp Order.measurable_consStream
    have hst : keysLaw ρ = (ρ.prod (keysLaw ρ)).map Order.consStream := (Order.stream_law ρ).symm
    conv_lhs => rw [hst]
    rw [lintegral_map (hm _) Order.measurable_consStream, lintegral_prod _ hc.aemeasurable]
    simp only [Finset.prod_range_succ', Order.consStream]
    have : ∀ x : K, ∫⁻ y : Nat → K, (∏ i ∈ Finset.range n, f (y i)) * f x ∂(keysLaw ρ) = (∫⁻ k, f k ∂ρ) ^ n * f x := fun x => by
      rw [lintegral_mul_const _ (hm n), ih]
    simp only [this]
    rw [lintegral_const_mul _ hf, pow_succ]

/-- The averaged density for `n` repeats. -/
theorem density_mean (hW : Measurable W) {n : Nat} :
    ∫⁻ keys, ENNReal.ofReal (Real.exp (mean W n keys)) ∂(keysLaw ρ) = (∫⁻ k, ENNReal.ofReal (Real.exp (W k / n)) ∂ρ) ^ n := by
  have hf : Measurable fun k => ENNReal.ofReal (Real.exp (W k / n)) := (Real.measurable_exp.comp (hW.div_const _)).ennreal_ofReal
  rw [← prod_keys ρ hf]
  refine lintegral_congr fun keys => ?_
  rw [← ENNReal.ofReal_prod_of_nonneg fun i _ => (Real.exp_pos _).le, ← Real.exp_sum, ← Finset.sum_div]
  rfl

/-- As a norm of the density of one evaluation. -/
theorem density_norm (n : Nat) (hn : 1 ≤ n) :
    (∫⁻ k, ENNReal.ofReal (Real.exp (W k / n)) ∂ρ) ^ n = eLpNorm' (fun k => Real.exp (W k)) (1 / n) ρ := by
  unfold eLpNorm'
  have hn0 : (n : ℝ) ≠ 0 := by exact_mod_cast (by omega : n ≠ 0)
  rw [one_div_one_div, ← ENNReal.rpow_natCast]
  congr 1
  refine lintegral_congr fun k => ?_
  rw [Real.enorm_of_nonneg (Real.exp_pos _).le, ENNReal.ofReal_rpow_of_pos (Real.exp_pos _), ← Real.exp_mul, mul_one_div]

theorem density_antitone (hW : Measurable W) {n m : Nat} (hn : 1 ≤ n) (h : n ≤ m) :
    (∫⁻ k, ENNReal.ofReal (Real.exp (W k / m)) ∂ρ) ^ m ≤ (∫⁻ k, ENNReal.ofReal (Real.exp (W k / n)) ∂ρ) ^ n := by
  rw [density_norm ρ n hn, density_norm ρ m (hn.trans h)]
  have h1 : (0 : ℝ) < n := by exact_mod_cast hn
  have h2 : (n : ℝ) ≤ m := by exact_mod_cast h
  exact eLpNorm'_le_eLpNorm'_of_exponent_le (one_div_pos.2 (h1.trans_le h2)) (one_div_le_one_div_of_le h1 h2) ρ
    (Real.measurable_exp.comp hW).aestronglyMeasurable

theorem density_low (hW : Measurable W) (hi : Integrable W ρ) {n : Nat} (hn : 1 ≤ n) :
    ENNReal.ofReal (Real.exp (∫ k, W k ∂ρ)) ≤ (∫⁻ k, ENNReal.ofReal (Real.exp (W k / n)) ∂ρ) ^ n := by
  have hn0 : (n : ℝ) ≠ 0 := by exact_mod_cast (by omega : n ≠ 0)
  by_cases hint : Integrable (fun k => Real.exp (W k / n)) ρ
  · have hj := convexOn_exp.map_integral_le (μ := ρ) Real.continuous_exp.continuousOn isClosed_univ (by simp) (hi.div_const (n : ℝ)) hint
    rw [integral_div] at hj
    rw [← ofReal_integral_eq_lintegral_ofReal hint (.of_forall fun k => (Real.exp_pos _).le),
      ← ENNReal.ofReal_pow (integral_nonneg fun k => (Real.exp_pos _).le)]
    refine ENNReal.ofReal_le_ofReal ?_
    calc Real.exp (∫ k, W k ∂ρ) = Real.exp ((∫ k, W k ∂ρ) / n) ^ n := by
          rw [← Real.exp_nat_mul]; congr 1; field_simp
      _ ≤ _ := pow_le_pow_left₀ (Real.exp_pos _).le hj n
  · have : ∫⁻ k, ENNReal.ofReal (Real.exp (W k / n)) ∂ρ = ∞ := by
      by_contra hne
      refine hint ⟨(Real.measurable_exp.comp (hW.div_const _)).aestronglyMeasurable, ?_⟩
      rw [hasFiniteIntegral_iff_ofReal (.of_forall fun k => (Real.exp_pos _).le)]
      exact lt_top_iff_ne_top.2 hne
    rw [this, ENNReal.top_pow (by omega)]
    exact le_top

theorem density_limit (hW : Measurable W) (hi : Integrable W ρ) {B : ℝ} (hB : ∀ k, W k ≤ B) :
    Tendsto (fun n : Nat => ∫⁻ keys, ENNReal.ofReal (Real.exp (mean W n keys)) ∂(keysLaw ρ)) atTop
      (𝓝 (ENNReal.ofReal (Real.exp (∫ k, W k ∂ρ)))) := by
  have hm : ∀ n, Measurable (mean W n) := fun n =>
    (Finset.measurable_sum _ fun i _ => hW.comp (measurable_pi_apply i)).div_const _
  have h := tendsto_lintegral_of_dominated_convergence (μ := keysLaw ρ)
    (F := fun n keys => ENNReal.ofReal (Real.exp (mean W n keys))) (f := fun _ => ENNReal.ofReal (Real.exp (∫ k, W k ∂ρ)))
    (fun _ => ENNReal.ofReal (Real.exp (max B 0))) (fun n => (Real.measurable_exp.comp (hm n)).ennreal_ofReal)
    (fun n => .of_forall fun keys => ENNReal.ofReal_le_ofReal (Real.exp_le_exp.2 (by
      unfold mean
      rcases Nat.eq_zero_or_pos n with rfl | hn
      · simp
      · have hn0 : (0 : ℝ) < n := by exact_mod_cast hn
        rw [div_le_iff₀ hn0]
        calc ∑ i ∈ Finset.range n, W (keys i) ≤ ∑ i ∈ Finset.range n, max B 0 :=
              Finset.sum_le_sum fun i _ => (hB _).trans (le_max_left _ _)
          _ = max B 0 * n := by simp [mul_comm])))
    (by simp) (by
      filter_upwards [mean_limit ρ hW hi] with keys hk
      exact (ENNReal.continuous_ofReal.tendsto _).comp ((Real.continuous_exp.tendsto _).comp hk))
  simpa using h

end
end Verif.Repeats
