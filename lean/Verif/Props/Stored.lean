/-
C116: the log posteriors stored in a chain, compared with fresh evaluations.
-/
import Verif.Lemmas.Stored
import Mathlib.Analysis.Complex.ExponentialBounds

namespace Verif.Walk
open Verif Parameter MeasureTheory
open scoped ENNReal

section
variable {K : Type} [MeasurableSpace K] {d n : Nat}

/-- **C116 (stored values are larger).** A chain in its stationary law (C115).  After any moves, the value stored for a walker is
on average at least what `log_posterior` gives when it is evaluated again at the position of the walker, for every increasing
function `g` of the posterior density and every weight `H` of the positions of all walkers. -/
theorem C116_larger (config : Config) (hc : config.keys.Nodup) (o : Settings) (ha : 1 < o.scale) (c : Ctx.Ctx K)
    (hr : Reachable config c.pm) (hd : (parameterFit c.pm).length = d)
    (hret : ∀ (x : Fin d → ℝ) keys, ∃ r, posterior o c x keys = .ok r)
    (hg : ∀ (x : Fin d → ℝ) m obj, (m, obj) ∈ c.likelihoods →
      Ctx.GoodObj (setParameter c.pm (.dict ((parameterFit c.pm).zip ((List.ofFn x).map XF.fin))) .none).1.vals obj)
    (hm : Measurable (density o c : (Fin d → ℝ) × (Nat → K) → ℝ≥0∞)) (μ : Measure (Nat → K)) [IsProbabilityMeasure μ]
    (sched : Schedule n) (hs : sched.Proper) (i : Fin n) (H : (Fin n → Fin d → ℝ) → ℝ≥0∞) (hH : Measurable H) (g : ℝ≥0∞ → ℝ≥0∞)
    (hmono : Monotone g) :
    ∫⁻ s, (∏ k, density o c (s k)) * expectAfter o μ (fun ws => H (fun k => (ws k).pos) * ∫⁻ keys, g (density o c ((ws i).pos, keys)) ∂μ)
        sched (c, walkersAt o c s) ∂(Measure.pi fun _ => volume.prod μ)
      ≤ ∫⁻ s, (∏ k, density o c (s k)) * expectAfter o μ (fun ws => H (fun k => (ws k).pos) * g (densityOf (ws i).logp))
        sched (c, walkersAt o c s) ∂(Measure.pi fun _ => volume.prod μ) := by
  have hpos : Measurable (fun s : Fin n → (Fin d → ℝ) × (Nat → K) => fun k => (s k).1) :=
    measurable_pi_lambda _ fun k => measurable_fst.comp (measurable_pi_apply k)
  have hav : Measurable (fun x : Fin d → ℝ => ∫⁻ keys, g (density o c (x, keys)) ∂μ) := (hmono.measurable.comp hm).lintegral_prod_right'
  rw [C115_stationary config hc o ha c hr hd hret hg hm μ sched hs _
      ((hH.comp hpos).mul (hav.comp (measurable_fst.comp (measurable_pi_apply i)))),
    C115_stationary config hc o ha c hr hd hret hg hm μ sched hs _
      ((hH.comp hpos).mul (hmono.measurable.comp (hm.comp (measurable_pi_apply i))))]
  exact stored_ge hm i H hH hmono

/-- **C116 (the best value).** In the same situation, the largest value stored for any walker is on average at least the largest
of the averages of fresh evaluations at the positions of the walkers. -/
theorem C116_best (config : Config) (hc : config.keys.Nodup) (o : Settings) (ha : 1 < o.scale) (c : Ctx.Ctx K)
    (hr : Reachable config c.pm) (hd : (parameterFit c.pm).length = d)
    (hret : ∀ (x : Fin d → ℝ) keys, ∃ r, posterior o c x keys = .ok r)
    (hg : ∀ (x : Fin d → ℝ) m obj, (m, obj) ∈ c.likelihoods →
      Ctx.GoodObj (setParameter c.pm (.dict ((parameterFit c.pm).zip ((List.ofFn x).map XF.fin))) .none).1.vals obj)
    (hm : Measurable (density o c : (Fin d → ℝ) × (Nat → K) → ℝ≥0∞)) (μ : Measure (Nat → K)) [IsProbabilityMeasure μ]
    (sched : Schedule n) (hs : sched.Proper) (H : (Fin n → Fin d → ℝ) → ℝ≥0∞) (hH : Measurable H) (g : ℝ≥0∞ → ℝ≥0∞)
    (hmono : Monotone g) :
    ∫⁻ s, (∏ k, density o c (s k)) * expectAfter o μ (fun ws => H (fun k => (ws k).pos) * ⨆ i, ∫⁻ keys, g (density o c ((ws i).pos, keys)) ∂μ)
        sched (c, walkersAt o c s) ∂(Measure.pi fun _ => volume.prod μ)
      ≤ ∫⁻ s, (∏ k, density o c (s k)) * expectAfter o μ (fun ws => H (fun k => (ws k).pos) * ⨆ i, g (densityOf (ws i).logp))
        sched (c, walkersAt o c s) ∂(Measure.pi fun _ => volume.prod μ) := by
  have hpos : Measurable (fun s : Fin n → (Fin d → ℝ) × (Nat → K) => fun k => (s k).1) :=
    measurable_pi_lambda _ fun k => measurable_fst.comp (measurable_pi_apply k)
  have hav : Measurable (fun x : Fin d → ℝ => ∫⁻ keys, g (density o c (x, keys)) ∂μ) := (hmono.measurable.comp hm).lintegral_prod_right'
  rw [C115_stationary config hc o ha c hr hd hret hg hm μ sched hs _
      ((hH.comp hpos).mul (Measurable.iSup fun i => hav.comp (measurable_fst.comp (measurable_pi_apply i)))),
    C115_stationary config hc o ha c hr hd hret hg hm μ sched hs _
      ((hH.comp hpos).mul (Measurable.iSup fun i => hmono.measurable.comp (hm.comp (measurable_pi_apply i))))]
  exact best_stored_ge hm H hH hmono

/-- **C116 (no noise, no bias).** If the log posterior at a position does not depend on the keys, the stored values are those of
fresh evaluations. -/
theorem C116_exact (config : Config) (hc : config.keys.Nodup) (o : Settings) (ha : 1 < o.scale) (c : Ctx.Ctx K)
    (hr : Reachable config c.pm) (hd : (parameterFit c.pm).length = d)
    (hret : ∀ (x : Fin d → ℝ) keys, ∃ r, posterior o c x keys = .ok r)
    (hg : ∀ (x : Fin d → ℝ) m obj, (m, obj) ∈ c.likelihoods →
      Ctx.GoodObj (setParameter c.pm (.dict ((parameterFit c.pm).zip ((List.ofFn x).map XF.fin))) .none).1.vals obj)
    (hm : Measurable (density o c : (Fin d → ℝ) × (Nat → K) → ℝ≥0∞)) (μ : Measure (Nat → K)) [IsProbabilityMeasure μ]
    (hn : ∀ (x : Fin d → ℝ) keys keys', posterior o c x keys = posterior o c x keys')
    (sched : Schedule n) (hs : sched.Proper) (i : Fin n) (H : (Fin n → Fin d → ℝ) → ℝ≥0∞) (hH : Measurable H) (g : ℝ≥0∞ → ℝ≥0∞)
    (hgm : Measurable g) :
    ∫⁻ s, (∏ k, density o c (s k)) * expectAfter o μ (fun ws => H (fun k => (ws k).pos) * ∫⁻ keys, g (density o c ((ws i).pos, keys)) ∂μ)
        sched (c, walkersAt o c s) ∂(Measure.pi fun _ => volume.prod μ)
      = ∫⁻ s, (∏ k, density o c (s k)) * expectAfter o μ (fun ws => H (fun k => (ws k).pos) * g (densityOf (ws i).logp))
        sched (c, walkersAt o c s) ∂(Measure.pi fun _ => volume.prod μ) := by
  have hpos : Measurable (fun s : Fin n → (Fin d → ℝ) × (Nat → K) => fun k => (s k).1) :=
    measurable_pi_lambda _ fun k => measurable_fst.comp (measurable_pi_apply k)
  have hav : Measurable (fun x : Fin d → ℝ => ∫⁻ keys, g (density o c (x, keys)) ∂μ) := (hgm.comp hm).lintegral_prod_right'
  rw [C115_stationary config hc o ha c hr hd hret hg hm μ sched hs _
      ((hH.comp hpos).mul (hav.comp (measurable_fst.comp (measurable_pi_apply i)))),
    C115_stationary config hc o ha c hr hd hret hg hm μ sched hs _
      ((hH.comp hpos).mul (hgm.comp (hm.comp (measurable_pi_apply i))))]
  refine lintegral_congr fun s => ?_
  have e : ∀ keys, density o c ((s i).1, keys) = density o c (s i) := fun keys => by
    unfold density
    rw [hn _ keys (s i).2]
  have e2 : (∫⁻ keys, g (density o c ((s i).1, keys)) ∂μ) = g (density o c (s i)) := by simp [e]
  simp only [walkersAt, e2]
  rfl

end

/-! ### The concrete case of C115: two keys, with different predictions -/

/-- One evaluation, the two keys equally likely. -/
noncomputable def exCoin : Measure (Nat → Bool) := (2⁻¹ : ℝ≥0∞) • Measure.dirac (fun _ => true) + (2⁻¹ : ℝ≥0∞) • Measure.dirac (fun _ => false)

instance : IsProbabilityMeasure exCoin := ⟨by simp [exCoin, ENNReal.inv_two_add_inv_two]⟩

/-- Non-vacuity of C116: four walkers, one iteration of two halves.  The value stored for the first walker exceeds any bound at
least as often as a fresh evaluation would. -/
example (t : ℝ≥0∞) :
    ∫⁻ s, (∏ k, density (exSettings 1) exCtx (s k)) * expectAfter (exSettings 1) exCoin
        (fun ws => 1 * ∫⁻ keys, Set.indicator (Set.Ici t) 1 (density (exSettings 1) exCtx ((ws 0).pos, keys)) ∂exCoin)
        (halves [0, 2] [1, 3]) (exCtx, walkersAt (n := 4) (d := 1) (exSettings 1) exCtx s) ∂(Measure.pi fun _ => volume.prod exCoin)
      ≤ ∫⁻ s, (∏ k, density (exSettings 1) exCtx (s k)) * expectAfter (exSettings 1) exCoin
        (fun ws => 1 * Set.indicator (Set.Ici t) 1 (densityOf (ws 0).logp)) (halves [0, 2] [1, 3])
        (exCtx, walkersAt (n := 4) (d := 1) (exSettings 1) exCtx s) ∂(Measure.pi fun _ => volume.prod exCoin) :=
  C116_larger exConfig (by simp [exConfig, PyDict.keys]) (exSettings 1) (by norm_num [exSettings]) exCtx exReachable
    (by simp [parameterFit, exCtx]) (fun x keys => by rw [exPosterior]; split <;> exact ⟨_, rfl⟩)
    (fun x m obj h => by
      simp only [exCtx, List.mem_singleton, Prod.mk.injEq] at h
      rw [h.2]
      trivial) (exMeasurable 1) exCoin (halves [0, 2] [1, 3]) (halves_proper _ _ (by simp) (by simp) (by decide)) 0 (fun _ => 1)
    measurable_const (Set.indicator (Set.Ici t) 1) (by
      intro a b hab
      by_cases h : t ≤ a
      · simp [Set.indicator, h, h.trans hab]
      · simp [Set.indicator, h])

theorem exDensity (k : Bool) : density (exSettings 1) exCtx ((fun _ => 4 : Fin 1 → ℝ), fun _ => k)
    = ENNReal.ofReal (Real.exp (3 * Real.log (exPred k 4) - exPred k 4)) := by
  unfold density
  rw [exPosterior, if_pos (by norm_num)]
  simp [valueOf, densityOf, exMean, Ctx.evaluations]

/-- The two laws of C116 differ in the concrete case: at one position, the average of the stored density, which is
`∫ density² / ∫ density`, is larger than the average of fresh ones. -/
theorem C116_differs :
    (∫⁻ keys, density (exSettings 1) exCtx ((fun _ => 4 : Fin 1 → ℝ), keys) ∂exCoin)
        * ∫⁻ keys, density (exSettings 1) exCtx ((fun _ => 4 : Fin 1 → ℝ), keys) ∂exCoin
      < ∫⁻ keys, density (exSettings 1) exCtx ((fun _ => 4 : Fin 1 → ℝ), keys) * density (exSettings 1) exCtx ((fun _ => 4 : Fin 1 → ℝ), keys) ∂exCoin := by
  have hmx : Measurable (fun keys : Nat → Bool => density (exSettings 1) exCtx ((fun _ => 4 : Fin 1 → ℝ), keys)) :=
    (exMeasurable 1).comp (measurable_const.prodMk measurable_id)
  have e : ∀ f : (Nat → Bool) → ℝ≥0∞, Measurable f → ∫⁻ keys, f keys ∂exCoin = 2⁻¹ * f (fun _ => true) + 2⁻¹ * f (fun _ => false) := by
    intro f hf
    simp [exCoin, lintegral_add_measure, lintegral_smul_measure, lintegral_dirac' _ hf]
  rw [e _ hmx, e (fun keys => density (exSettings 1) exCtx ((fun _ => 4 : Fin 1 → ℝ), keys) * density (exSettings 1) exCtx ((fun _ => 4 : Fin 1 → ℝ), keys))
    (hmx.mul hmx)]
  simp only [exDensity]
  set a := Real.exp (3 * Real.log (exPred true 4) - exPred true 4) with hadef
  set b := Real.exp (3 * Real.log (exPred false 4) - exPred false 4) with hbdef
  have ha0 : 0 < a := Real.exp_pos _
  have hb0 : 0 < b := Real.exp_pos _
  have hab : a ≠ b := by
    intro h
    rw [hadef, hbdef, Real.exp_eq_exp] at h
    have h4 : Real.log 4 = 2 * Real.log 2 := by
      rw [show (4 : ℝ) = 2 ^ 2 by norm_num, Real.log_pow]
      norm_num
    have e1 : exPred true 4 = 4 := by simp [exPred]
    have e2 : exPred false 4 = 2 := by norm_num [exPred]
    rw [e1, e2, h4] at h
    have := Real.log_two_gt_d9
    linarith
  have h2 : (2⁻¹ : ℝ≥0∞) = ENNReal.ofReal (1 / 2) := by
    rw [one_div, ENNReal.ofReal_inv_of_pos (by norm_num)]
    simp
  rw [h2, ← ENNReal.ofReal_mul (by norm_num), ← ENNReal.ofReal_mul (by norm_num), ← ENNReal.ofReal_mul ha0.le, ← ENNReal.ofReal_mul hb0.le,
    ← ENNReal.ofReal_mul (by norm_num), ← ENNReal.ofReal_mul (by norm_num), ← ENNReal.ofReal_add (by positivity) (by positivity),
    ← ENNReal.ofReal_add (by positivity) (by positivity), ← ENNReal.ofReal_mul (by positivity), ENNReal.ofReal_lt_ofReal_iff (by positivity)]
  have := sq_pos_of_ne_zero (sub_ne_zero.2 hab)
  nlinarith

end Verif.Walk
