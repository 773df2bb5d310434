/-
C115: what a fit samples.
-/
import Verif.Lemmas.Walk

namespace Verif.Walk
open Verif Parameter MeasureTheory
open scoped ENNReal

section
variable {K : Type} [MeasurableSpace K] {d n : Nat}

/-- **C115 (stationary law).** A context made from a configuration, whose log posterior returns a value at every position for all
keys, with a density that is measurable in both.  The walkers are moved in any order, each with a partner taken uniformly from
any others.  If positions and keys are spread with the density of the log posterior for every walker, independently of each
other, they are so after the moves: every quantity of the walkers, stored log posteriors included, has the same expectation. -/
theorem C115_stationary (config : Config) (hc : config.keys.Nodup) (o : Settings) (ha : 1 < o.scale) (c : Ctx.Ctx K)
    (hr : Reachable config c.pm) (hd : (parameterFit c.pm).length = d)
    (hret : ∀ (x : Fin d → ℝ) keys, ∃ r, posterior o c x keys = .ok r)
    (hg : ∀ (x : Fin d → ℝ) m obj, (m, obj) ∈ c.likelihoods →
      Ctx.GoodObj (setParameter c.pm (.dict ((parameterFit c.pm).zip ((List.ofFn x).map XF.fin))) .none).1.vals obj)
    (hm : Measurable (density o c : (Fin d → ℝ) × (Nat → K) → ℝ≥0∞)) (μ : Measure (Nat → K)) [IsProbabilityMeasure μ]
    (sched : Schedule n) (hs : sched.Proper) (F : (Fin n → Walker d K) → ℝ≥0∞)
    (hF : Measurable (fun s => F (walkersAt o c s))) :
    ∫⁻ s, (∏ i, density o c (s i)) * expectAfter o μ F sched (c, walkersAt o c s) ∂(Measure.pi fun _ => volume.prod μ)
      = ∫⁻ s, (∏ i, density o c (s i)) * F (walkersAt o c s) ∂(Measure.pi fun _ => volume.prod μ) := by
  have hpost : ∀ (x : Fin d → ℝ) keys, ∃ v lp, posterior o c x keys = .ok (v, lp) ∧ Plain v := by
    intro x keys
    obtain ⟨⟨v, lp⟩, h⟩ := hret x keys
    exact ⟨v, lp, h, Ctx.C40_never_nan o.sig o.order keys c _ o.batch o.repeats (hg x) v lp h⟩
  have e := fun s => expectAfter_eq config hc o ha hr hd hpost μ F sched c ⟨[], by simp, rfl⟩ s
  simp only [e]
  refine pexp_invariant (fun b => stretch_balanced o.scale ha b) (fun w => ?_) (proposal_measurable o.scale)
    (ratio_measurable.comp (stretch_measurable o.scale)) hm (fun s => densityOf_ne_top _) sched hs (fun s => F (walkersAt o c s)) hF
  constructor <;> simp [ratio, Real.exp_pos]

/-- **C115 (law of the parameters).** In the situation of the stationary law, the expectation of every quantity of the positions
is that for walkers spread independently with the density averaged over the keys. -/
theorem C115_parameters (config : Config) (hc : config.keys.Nodup) (o : Settings) (ha : 1 < o.scale) (c : Ctx.Ctx K)
    (hr : Reachable config c.pm) (hd : (parameterFit c.pm).length = d)
    (hret : ∀ (x : Fin d → ℝ) keys, ∃ r, posterior o c x keys = .ok r)
    (hg : ∀ (x : Fin d → ℝ) m obj, (m, obj) ∈ c.likelihoods →
      Ctx.GoodObj (setParameter c.pm (.dict ((parameterFit c.pm).zip ((List.ofFn x).map XF.fin))) .none).1.vals obj)
    (hm : Measurable (density o c : (Fin d → ℝ) × (Nat → K) → ℝ≥0∞)) (μ : Measure (Nat → K)) [IsProbabilityMeasure μ]
    (sched : Schedule n) (hs : sched.Proper) (F : (Fin n → Fin d → ℝ) → ℝ≥0∞) (hF : Measurable F) :
    ∫⁻ s, (∏ i, density o c (s i)) * expectAfter o μ (fun ws => F (fun i => (ws i).pos)) sched (c, walkersAt o c s)
        ∂(Measure.pi fun _ => volume.prod μ)
      = ∫⁻ x, (∏ i, ∫⁻ keys, density o c (x i, keys) ∂μ) * F x ∂(Measure.pi fun _ => volume) := by
  rw [C115_stationary config hc o ha c hr hd hret hg hm μ sched hs _ (by
    refine hF.comp ?_
    exact measurable_pi_lambda _ fun i => measurable_fst.comp (measurable_pi_apply i))]
  exact marginal_noise hm F hF

/-- **C115 (the density).** Where the log prior is finite and the log likelihoods `v k` for the key `k` are, the density averaged
over the keys is the prior times the average of the exponential of the mean log likelihood of the repetitions; where the log
prior is not finite, it is zero. -/
theorem C115_density (o : Settings) (c : Ctx.Ctx K) (x : Fin d → ℝ) (pm : PM)
    (hset : setParameter c.pm (.dict ((parameterFit c.pm).zip ((List.ofFn x).map XF.fin))) .none = (pm, .ok ())) (μ : Measure (Nat → K)) :
    (∀ lp (v : K → List ℝ), logPriorOver o.sig pm o.order = .ok (.fin lp) →
      (∀ k, Ctx.Evals o.batch pm.vals c.likelihoods k ((v k).map XF.fin)) →
      ∫⁻ keys, density o c (x, keys) ∂μ = ENNReal.ofReal (Real.exp lp) * ∫⁻ keys, ENNReal.ofReal (Real.exp
        (((List.range (Ctx.evaluations o.repeats)).map (fun i => (v (keys i)).sum)).sum / Ctx.evaluations o.repeats)) ∂μ) ∧
    (∀ lp, logPriorOver o.sig pm o.order = .ok lp → ¬ lp.isFinite → ∫⁻ keys, density o c (x, keys) ∂μ = 0) := by
  constructor
  · intro lp v hlp hv
    rw [← lintegral_const_mul' _ _ (by simp)]
    refine lintegral_congr fun keys => ?_
    have := Ctx.C40_value o.sig o.order keys c _ o.batch o.repeats pm lp hset hlp (fun i => v (keys i)) (fun i _ => hv (keys i))
    simp only [density, posterior, this, valueOf, densityOf]
    rw [Real.exp_add, mul_comm, ENNReal.ofReal_mul (Real.exp_pos _).le]
  · intro lp hlp hfin
    have : ∀ keys, density o c (x, keys) = 0 := by
      intro keys
      have := Ctx.C40_invalid_prior o.sig o.order keys c _ o.batch o.repeats pm lp hset hlp hfin c.likelihoods
      have h2 : (posterior o c x keys) = .ok (.ninf, lp) := this
      simp [density, h2, valueOf, densityOf]
    simp [this]

theorem exp_mean_le (R : Nat) (hR : 0 < R) (l : Nat → ℝ) :
    Real.exp (((List.range R).map l).sum / R) ≤ ((List.range R).map (fun i => Real.exp (l i))).sum / R := by
  have h := convexOn_exp.map_sum_le (t := Finset.range R) (w := fun _ => (R : ℝ)⁻¹) (p := l) (by intros; positivity)
    (by simp [hR.ne']) (by simp)
  simp only [smul_eq_mul, ← Finset.mul_sum] at h
  have e : ∀ f : Nat → ℝ, ((List.range R).map f).sum = ∑ i ∈ Finset.range R, f i := fun f => (Multiset.sum_coe _).symm
  rw [e, e, div_eq_inv_mul, div_eq_inv_mul]
  exact h

/-- **C115 (repetitions).** If moreover every key has the law `ρ`, the density averaged over the keys is at most the prior times
the average likelihood for one key, and equal to it if the evaluation is not repeated. -/
theorem C115_repeats (o : Settings) (c : Ctx.Ctx K) (x : Fin d → ℝ) (pm : PM)
    (hset : setParameter c.pm (.dict ((parameterFit c.pm).zip ((List.ofFn x).map XF.fin))) .none = (pm, .ok ())) (μ : Measure (Nat → K))
    (lp : ℝ) (v : K → List ℝ) (hlp : logPriorOver o.sig pm o.order = .ok (.fin lp))
    (hv : ∀ k, Ctx.Evals o.batch pm.vals c.likelihoods k ((v k).map XF.fin)) (hvm : Measurable (fun k => (v k).sum)) (ρ : Measure K)
    (hρ : ∀ i, μ.map (fun keys => keys i) = ρ) :
    ∫⁻ keys, density o c (x, keys) ∂μ ≤ ENNReal.ofReal (Real.exp lp) * ∫⁻ k, ENNReal.ofReal (Real.exp (v k).sum) ∂ρ ∧
    (o.repeats ≤ 1 →
      ∫⁻ keys, density o c (x, keys) ∂μ = ENNReal.ofReal (Real.exp lp) * ∫⁻ k, ENNReal.ofReal (Real.exp (v k).sum) ∂ρ) := by
  rw [(C115_density o c x pm hset μ).1 lp v hlp hv]
  have hone : ∀ i, ∫⁻ keys, ENNReal.ofReal (Real.exp (v (keys i)).sum) ∂μ = ∫⁻ k, ENNReal.ofReal (Real.exp (v k).sum) ∂ρ := by
    intro i
    rw [← hρ i, lintegral_map (by fun_prop) (measurable_pi_apply i)]
  have hpos : 0 < Ctx.evaluations o.repeats := Nat.lt_of_lt_of_le Nat.one_pos (le_max_left _ _)
  generalize hR : Ctx.evaluations o.repeats = R at hpos ⊢
  constructor
  · gcongr
    calc ∫⁻ keys, ENNReal.ofReal (Real.exp (((List.range R).map (fun i => (v (keys i)).sum)).sum / R)) ∂μ
        ≤ ∫⁻ keys, ((List.range R).map (fun i => ENNReal.ofReal (Real.exp (v (keys i)).sum))).sum * (R : ℝ≥0∞)⁻¹ ∂μ := by
          refine lintegral_mono fun keys => ?_
          refine (ENNReal.ofReal_le_ofReal (exp_mean_le R hpos _)).trans ?_
          rw [div_eq_mul_inv, ENNReal.ofReal_mul (List.sum_nonneg (by simp; intros; positivity)),
            ENNReal.ofReal_inv_of_pos (by exact_mod_cast hpos), ENNReal.ofReal_natCast]
          gcongr
          have : ∀ l : List Nat, ENNReal.ofReal (l.map (fun i => Real.exp (v (keys i)).sum)).sum
              = (l.map (fun i => ENNReal.ofReal (Real.exp (v (keys i)).sum))).sum := by
            intro l
            induction l with
            | nil => simp
            | cons a l ih =>
              rw [List.map_cons, List.sum_cons, ENNReal.ofReal_add (Real.exp_pos _).le (List.sum_nonneg (by simp; intros; positivity)), ih]
              simp
          exact (this _).le
      _ = ∫⁻ k, ENNReal.ofReal (Real.exp (v k).sum) ∂ρ := by
          rw [lintegral_mul_const' _ _ (by simp [hpos.ne']), lintegral_list_sum _ _ _ (fun i _ => by
            have := hvm.comp (measurable_pi_apply (X := fun _ : Nat => K) i)
            simp only [Function.comp_def] at this
            fun_prop)]
          simp only [hone, List.map_const', List.sum_replicate, List.length_range, nsmul_eq_mul]
          rw [mul_right_comm, ENNReal.mul_inv_cancel (by exact_mod_cast hpos.ne') (by simp), one_mul]
  · intro h
    have : R = 1 := by rw [← hR]; unfold Ctx.evaluations; omega
    subst this
    simp [hone]

end

/-! ### A concrete case: one parameter, a likelihood whose prediction depends on the key -/

theorem halves_proper {n : Nat} (l r : List (Fin n)) (hl : l ≠ []) (hr : r ≠ []) (h : ∀ i ∈ l, i ∉ r) : (halves l r).Proper := by
  intro a ha
  simp only [halves, List.mem_append, List.mem_map] at ha
  rcases ha with ⟨i, hi, rfl⟩ | ⟨i, hi, rfl⟩
  · exact ⟨hr, h i hi⟩
  · exact ⟨hl, fun h' => h i h' hi⟩

/-- A likelihood with three events in its one bin; the prediction is the parameter, or half of it for one of the keys. -/
noncomputable def exObj : Ctx.Obj Bool :=
  .binned [] [[3]] ⟨[("er", .sim ["g"] (fun k _ p => do let v ← p.getItem "g"; return (k, [[if k then v else v * .fin (1 / 2)]]))
    (fun k _ _ => .ok (k, [])))], ["g"]⟩

noncomputable def exConfig : Config := [("g", ⟨.free, some (1, 10), some (2, 1)⟩)]

noncomputable def exCtx : Ctx.Ctx Bool where
  parConfig := exConfig
  pm := ⟨exConfig, [], ["g"], [("g", .fin 5)]⟩
  needed := ["g"]
  likelihoods := [("a", exObj)]

noncomputable def exSettings (repeats : Int) : Settings := ⟨fun _ => none, ["g"], 1, repeats, 2⟩

theorem exReachable : Reachable exConfig exCtx.pm := by
  refine ⟨fun _ => none, fun _ => 5, [], ?_⟩
  have h : clip 5 1 10 = 5 := by norm_num [clip]
  have h1 : ¬ ((1 : ℝ) < 0) := by norm_num
  simp [run, mk, mkRaw, samplePrior, sampleLoop, samplePriorOne, clipRange, exCtx, exConfig, Prior.isFixed,
    PyDict.keys, PyDict.get?, PyDict.set, drawInit, drawNormal, bind, Except.bind, h1, h]

/-- The prediction. -/
noncomputable def exPred (k : Bool) (g : ℝ) : ℝ := if k then g else g * (1 / 2)

theorem exObj_logL (k : Bool) (batch : Int) (g : ℝ) (hg : 0 < g) :
    exObj.logL k batch [("g", .fin g)] = .ok (k, .fin (3 * Real.log (exPred k g) - exPred k g)) := by
  have h1 : Llh.simulateModelHist [] [[(3 : ℝ)]] ⟨[("er", Llh.LComp.sim ["g"]
      (fun (k : Bool) _ p => do let v ← p.getItem "g"; return (k, [[if k then v else v * .fin (1 / 2)]])) (fun k _ _ => .ok (k, [])))], ["g"]⟩ k batch
      (Llh.replaceAlias [] [("g", XF.fin g)]) = .ok (k, [[XF.fin (exPred k g)]]) := by
    cases k <;> simp [Llh.simulateModelHist, Llh.replaceAlias, Llh.modelLoop, PyDict.getItem, PyDict.get?, bind, Except.bind, pure,
      Except.pure, Llh.addGrid, Llh.zeros, exPred]
  have hpos : 0 < exPred k g := by unfold exPred; split <;> positivity
  have h2 := Llh.C38_value [[3]] [[.fin (exPred k g)]] [exPred k g] rfl (by simpa using hpos)
  simp only [exObj, Ctx.Obj.logL, Llh.getLogLikelihood, h1]
  simp only [bind, Except.bind, h2, pure, Except.pure]
  simp [Llh.poissonValue]

theorem exSet (x : Fin 1 → ℝ) :
    setParameter exCtx.pm (.dict ((parameterFit exCtx.pm).zip ((List.ofFn x).map XF.fin))) .none
      = ({ exCtx.pm with vals := [("g", .fin (x 0))] }, .ok ()) := by
  simp [setParameter, checkExist, exCtx, exConfig, parameterFit, PyDict.keys, PyDict.has, PyDict.get?, setList, PyDict.update, PyDict.set]

theorem exPrior (repeats : Int) (g : ℝ) : logPriorOver (exSettings repeats).sig { exCtx.pm with vals := [("g", .fin g)] } (exSettings repeats).order
    = .ok (if 1 ≤ g ∧ g ≤ 10 then .fin 0 else .ninf) := by
  by_cases h : 1 ≤ g ∧ g ≤ 10
  · have h1 : ¬ (g < 1 ∨ 10 < g) := by rintro (h' | h') <;> linarith [h.1, h.2]
    simp [logPriorOver, exCtx, exConfig, exSettings, PyDict.getItem, PyDict.get?, logPriorTerm, bind, Except.bind, pure, Except.pure, XF.sum, h1, h]
  · have h1 : g < 1 ∨ 10 < g := by
      by_contra h'
      simp only [not_or, not_lt] at h'
      exact h h'
    simp [logPriorOver, exCtx, exConfig, exSettings, PyDict.getItem, PyDict.get?, logPriorTerm, bind, Except.bind, pure, Except.pure, h1, h,
      XF.sum_cons]

theorem exEvals (repeats : Int) (g : ℝ) (hg : 0 < g) (k : Bool) :
    Ctx.Evals (exSettings repeats).batch [("g", XF.fin g)] exCtx.likelihoods k (([3 * Real.log (exPred k g) - exPred k g]).map XF.fin) :=
  .cons (Ctx.logL_iff.1 (exObj_logL k 1 g hg)) (.nil _)

/-- The log likelihood averaged over the repetitions. -/
noncomputable def exMean (repeats : Int) (g : ℝ) (keys : Nat → Bool) : ℝ :=
  ((List.range (Ctx.evaluations repeats)).map (fun i => ([3 * Real.log (exPred (keys i) g) - exPred (keys i) g]).sum)).sum / Ctx.evaluations repeats

theorem exPosterior (repeats : Int) (x : Fin 1 → ℝ) (keys : Nat → Bool) :
    posterior (exSettings repeats) exCtx x keys
      = if 1 ≤ x 0 ∧ x 0 ≤ 10 then .ok (.fin (exMean repeats (x 0) keys + 0), .fin 0) else .ok (.ninf, .ninf) := by
  have hp := exPrior repeats (x 0)
  split
  · rename_i h
    rw [if_pos h] at hp
    exact Ctx.C40_value _ _ keys exCtx _ _ _ _ 0 (exSet x) hp (fun i => [3 * Real.log (exPred (keys i) (x 0)) - exPred (keys i) (x 0)])
      (fun i _ => exEvals repeats (x 0) (by linarith [h.1]) (keys i))
  · rename_i h
    rw [if_neg h] at hp
    exact Ctx.C40_invalid_prior _ _ keys exCtx _ _ _ _ .ninf (exSet x) hp (by simp) exCtx.likelihoods

theorem exMeasurable (repeats : Int) : Measurable (density (exSettings repeats) exCtx : (Fin 1 → ℝ) × (Nat → Bool) → ℝ≥0∞) := by
  classical
  have h : (density (exSettings repeats) exCtx : (Fin 1 → ℝ) × (Nat → Bool) → ℝ≥0∞)
      = fun q => if 1 ≤ q.1 0 ∧ q.1 0 ≤ 10 then ENNReal.ofReal (Real.exp (exMean repeats (q.1 0) q.2 + 0)) else 0 := by
    funext q
    unfold density
    rw [exPosterior]
    split <;> simp [valueOf, densityOf]
  rw [h]
  have h0 : Measurable (fun q : (Fin 1 → ℝ) × (Nat → Bool) => q.1 0) := by fun_prop
  refine Measurable.ite (MeasurableSet.inter (measurableSet_le measurable_const h0) (measurableSet_le h0 measurable_const)) ?_ measurable_const
  have hpred : ∀ i : Nat, Measurable (fun q : (Fin 1 → ℝ) × (Nat → Bool) => exPred (q.2 i) (q.1 0)) := by
    intro i
    unfold exPred
    refine Measurable.ite ?_ h0 (h0.mul_const _)
    exact (((measurable_pi_apply i).comp measurable_snd) : Measurable (fun q : (Fin 1 → ℝ) × (Nat → Bool) => q.2 i)) (MeasurableSet.singleton true)
  have hsum : ∀ l : List Nat, Measurable (fun q : (Fin 1 → ℝ) × (Nat → Bool) =>
      (l.map (fun i => ([3 * Real.log (exPred (q.2 i) (q.1 0)) - exPred (q.2 i) (q.1 0)]).sum)).sum) := by
    intro l
    induction l with
    | nil => simp
    | cons a l ih =>
      simp only [List.map_cons, List.sum_cons]
      have h1 : Measurable (fun q : (Fin 1 → ℝ) × (Nat → Bool) => 3 * Real.log (exPred (q.2 a) (q.1 0)) - exPred (q.2 a) (q.1 0)) :=
        ((Real.measurable_log.comp (hpred a)).const_mul 3).sub (hpred a)
      simp only [List.sum_cons, List.sum_nil, add_zero] at ih ⊢
      exact h1.add ih
  have := hsum (List.range (Ctx.evaluations repeats))
  unfold exMean
  fun_prop

/-- Non-vacuity of C115: four walkers, an iteration of two halves, two evaluations for each position, keys by coin tosses.  The
positions are spread with the average of two densities with different predictions, for every quantity `F`. -/
example (F : (Fin 4 → Fin 1 → ℝ) → ℝ≥0∞) (hF : Measurable F) (μ : Measure (Nat → Bool)) [IsProbabilityMeasure μ] :
    ∫⁻ s, (∏ i, density (exSettings 2) exCtx (s i)) * expectAfter (exSettings 2) μ (fun ws => F (fun i => (ws i).pos)) (halves [0, 2] [1, 3])
        (exCtx, walkersAt (exSettings 2) exCtx s) ∂(Measure.pi fun _ => volume.prod μ)
      = ∫⁻ x, (∏ i, ∫⁻ keys, density (exSettings 2) exCtx (x i, keys) ∂μ) * F x ∂(Measure.pi fun _ => volume) :=
  C115_parameters exConfig (by simp [exConfig, PyDict.keys]) (exSettings 2) (by norm_num [exSettings]) exCtx exReachable
    (by simp [parameterFit, exCtx]) (fun x keys => by rw [exPosterior]; split <;> exact ⟨_, rfl⟩)
    (fun x m obj h => by
      simp only [exCtx, List.mem_singleton, Prod.mk.injEq] at h
      rw [h.2]
      trivial) (exMeasurable 2) μ (halves [0, 2] [1, 3]) (halves_proper _ _ (by simp) (by simp) (by decide)) F hF

/-- Non-vacuity of C115 (repetitions): one evaluation, and the two keys equally likely. -/
example (μ : Measure (Nat → Bool)) (ρ : Measure Bool) (hρ : ∀ i, μ.map (fun keys => keys i) = ρ) :
    ∫⁻ keys, density (exSettings 1) exCtx ((fun _ => 4 : Fin 1 → ℝ), keys) ∂μ
      = ENNReal.ofReal (Real.exp 0) * ∫⁻ k, ENNReal.ofReal (Real.exp (3 * Real.log (exPred k 4) - exPred k 4)) ∂ρ := by
  have := (C115_repeats (exSettings 1) exCtx (fun _ => 4 : Fin 1 → ℝ) _ (exSet _) μ 0 (fun k => [3 * Real.log (exPred k 4) - exPred k 4])
    (by rw [exPrior, if_pos]; norm_num) (fun k => exEvals 1 4 (by norm_num) k) (measurable_of_countable _) ρ hρ).2 (by simp [exSettings])
  simpa using this

end Verif.Walk
