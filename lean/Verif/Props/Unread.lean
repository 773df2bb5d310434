/-
Property theorems for parameters that no likelihood reads (C144).
-/
import Verif.Lemmas.Unread
import Verif.Props.Walk
import Mathlib.MeasureTheory.Constructions.Pi

namespace Verif.Ctx
open Verif Parameter

/-- **C144 (likelihood).** A likelihood none of whose components needs a parameter given as `n` has the same value for all values
of that parameter, and uses the same random numbers. -/
theorem C144_likelihood {K : Type} (names : List String) (n : String) (o : Obj K) (ho : o.Unread names n) (p q : PyDict String XF)
    (hpq : ∀ k, k ≠ n → p.get? k = q.get? k) (hin : ∀ k ∈ names, ∃ v, p.get? k = some v) (key : K) (batch : Int) :
    o.logL key batch p = o.logL key batch q := unread_logL ho hpq hin key batch

end Verif.Ctx

namespace Verif.Walk
open Verif Parameter MeasureTheory
open scoped ENNReal

section
variable {K : Type} [MeasurableSpace K] {d : Nat}

theorem priorLogDensity_measurable (sig : Solver) (p : Prior) : Measurable (priorLogDensity sig p) := by
  cases p with
  | norm m s => unfold priorLogDensity; fun_prop
  | twohalfnorm mu sp sn =>
    cases h : sig (sp, sn) with
    | none =>
      rw [show priorLogDensity sig (.twohalfnorm mu sp sn) = fun _ => 0 by funext x; simp [priorLogDensity, h]]
      exact measurable_const
    | some ab =>
      obtain ⟨a, b⟩ := ab
      have : Measurable (fun x : ℝ => if x < mu then b else a) :=
        Measurable.ite (measurableSet_lt measurable_id measurable_const) measurable_const measurable_const
      rw [show priorLogDensity sig (.twohalfnorm mu sp sn) = fun x => Real.log (2 / (a + b) / Real.sqrt (2 * Real.pi)) -
        (x - mu) ^ 2 / (2 * (if x < mu then b else a) ^ 2) by funext x; simp [priorLogDensity, h]]
      fun_prop
  | _ => exact measurable_const

theorem priorDensity_measurable (sig : Solver) (s : Setting) : Measurable (priorDensity sig s) := by
  classical
  unfold priorDensity
  cases s.allowed with
  | none => exact measurable_const
  | some r =>
    have := priorLogDensity_measurable sig s.prior
    refine Measurable.ite ?_ (by fun_prop) measurable_const
    exact MeasurableSet.inter (measurableSet_le measurable_const measurable_id) (measurableSet_le measurable_id measurable_const)

theorem split_coordinate (i : Fin (d + 1)) {G : ℝ → ℝ≥0∞} {H : (Fin d → ℝ) → ℝ≥0∞} (hG : Measurable G) (hH : Measurable H) :
    ∫⁻ x : Fin (d + 1) → ℝ, G (x i) * H (i.removeNth x) = (∫⁻ t, G t) * ∫⁻ y, H y := by
  have h := (volume_preserving_piFinSuccAbove (fun _ : Fin (d + 1) => ℝ) i).lintegral_comp
    (f := fun q : ℝ × (Fin d → ℝ) => G q.1 * H q.2) ((hG.comp measurable_fst).mul (hH.comp measurable_snd))
  have e : ∀ x : Fin (d + 1) → ℝ, MeasurableEquiv.piFinSuccAbove (fun _ => ℝ) i x = (x i, i.removeNth x) := fun x => rfl
  simp only [e] at h
  rw [h]
  exact lintegral_prod_mul hG.aemeasurable hH.aemeasurable

/-- **C144 (factor).** If no likelihood reads the fitted parameter `n`, the density at a position and for given keys is the prior
density of that parameter, times something that does not depend on its value. -/
theorem C144_factor (config : Config) (hc : config.keys.Nodup) (o : Settings) (c : Ctx.Ctx K) (hr : Reachable config c.pm)
    (hd : (parameterFit c.pm).length = d + 1) (ho : o.order.Perm (parameterFit c.pm)) (i : Fin (d + 1)) (n : String)
    (hn : (parameterFit c.pm)[i.val]? = some n) (s : Setting) (hs : config.get? n = some s) (hok : EvalOK o.sig s)
    (hl : ∀ m obj, (m, obj) ∈ c.likelihoods → obj.Unread config.keys n) :
    ∃ R : (Fin d → ℝ) → (Nat → K) → ℝ≥0∞,
      (Measurable (density o c : (Fin (d + 1) → ℝ) × (Nat → K) → ℝ≥0∞) → Measurable (fun q : (Fin d → ℝ) × (Nat → K) => R q.1 q.2)) ∧
      ∀ x keys, density o c (x, keys) = priorDensity o.sig s (x i) * R (i.removeNth x) keys := by
  have hmem : n ∈ o.order := ho.mem_iff.2 (List.mem_of_getElem? hn)
  have hnd : o.order.Nodup := ho.nodup_iff.2 (parameterFit_nodup hr.inv hc)
  have hzero : ∀ (x : Fin (d + 1) → ℝ) keys, priorDensity o.sig s (x i) = 0 → density o c (x, keys) = 0 := fun x keys hz =>
    density_outside hc hr (differ_of hc hr hd hn hs (x := x) (y := x) fun _ _ => rfl) hmem keys hz
  by_cases ht : ∃ t, priorDensity o.sig s t ≠ 0
  · obtain ⟨t, ht⟩ := ht
    obtain ⟨⟨lo, hi⟩, hal⟩ := hok.1
    have hin : ∀ u, priorDensity o.sig s u ≠ 0 → lo ≤ u ∧ u ≤ hi := by
      intro u hu
      by_contra h
      exact hu (by simp only [priorDensity, hal, h, if_false])
    have hP : ∀ u, lo ≤ u ∧ u ≤ hi → priorDensity o.sig s u = ENNReal.ofReal (Real.exp (priorLogDensity o.sig s.prior u)) := by
      intro u hu
      simp only [priorDensity, hal, hu, and_self, if_true]
    refine ⟨fun y keys => density o c (i.insertNth t y, keys) / priorDensity o.sig s t, ?_, ?_⟩
    · intro hm
      have h1 : Measurable (fun y : Fin d → ℝ => (i.insertNth t y : Fin (d + 1) → ℝ)) := by
        refine measurable_pi_lambda _ fun j => ?_
        refine Fin.succAboveCases i ?_ (fun k => ?_) j
        · simp only [Fin.insertNth_apply_same]; exact measurable_const
        · simp only [Fin.insertNth_apply_succAbove]; exact measurable_pi_apply k
      exact (hm.comp ((h1.comp measurable_fst).prodMk measurable_snd)).div_const _
    · intro x keys
      by_cases hx : priorDensity o.sig s (x i) = 0
      · rw [hx, zero_mul, hzero x keys hx]
      · have hdiff := differ_of hc hr hd hn hs (x := i.insertNth t (i.removeNth x)) (y := x) (by
          intro j hj
          obtain ⟨k, rfl⟩ := Fin.exists_succAbove_eq hj
          simp [Fin.removeNth])
        rw [show (i.insertNth t (i.removeNth x) : Fin (d + 1) → ℝ) i = t from Fin.insertNth_apply_same _ _ _] at hdiff
        rw [density_shift hc hr hdiff hok hal (hin t ht) (hin _ hx) hnd hmem hl keys, hP _ (hin _ hx), hP t (hin t ht), Real.exp_sub,
          ENNReal.ofReal_div_of_pos (Real.exp_pos _)]
        simp only [div_eq_mul_inv]
        ring
  · have ht' : ∀ t, priorDensity o.sig s t = 0 := fun t => by_contra fun h => ht ⟨t, h⟩
    exact ⟨fun _ _ => 0, fun _ => measurable_const, fun x keys => by rw [ht', zero_mul, hzero x keys (ht' _)]⟩

/-- **C144 (posterior).** The posterior of a fitted parameter that no likelihood reads is its prior, whatever is known about the
other parameters: the posterior probability of any set of values of it, also together with any quantity `F` of the other
parameters, is the prior probability. -/
theorem C144_posterior (config : Config) (hc : config.keys.Nodup) (o : Settings) (c : Ctx.Ctx K) (hr : Reachable config c.pm)
    (hd : (parameterFit c.pm).length = d + 1) (ho : o.order.Perm (parameterFit c.pm)) (i : Fin (d + 1)) (n : String)
    (hn : (parameterFit c.pm)[i.val]? = some n) (s : Setting) (hs : config.get? n = some s) (hok : EvalOK o.sig s)
    (hl : ∀ m obj, (m, obj) ∈ c.likelihoods → obj.Unread config.keys n)
    (hm : Measurable (density o c : (Fin (d + 1) → ℝ) × (Nat → K) → ℝ≥0∞)) (μ : Measure (Nat → K)) [IsProbabilityMeasure μ]
    (A : Set ℝ) (hA : MeasurableSet A) (F : (Fin d → ℝ) → ℝ≥0∞) (hF : Measurable F) :
    (∫⁻ t, priorDensity o.sig s t) * ∫⁻ x : Fin (d + 1) → ℝ, A.indicator 1 (x i) * F (i.removeNth x) * ∫⁻ keys, density o c (x, keys) ∂μ
      = (∫⁻ t in A, priorDensity o.sig s t) * ∫⁻ x : Fin (d + 1) → ℝ, F (i.removeNth x) * ∫⁻ keys, density o c (x, keys) ∂μ := by
  obtain ⟨R, hRm, hR⟩ := C144_factor config hc o c hr hd ho i n hn s hs hok hl
  have hRm := hRm hm
  have hP := priorDensity_measurable o.sig s
  have hav : ∀ x : Fin (d + 1) → ℝ, ∫⁻ keys, density o c (x, keys) ∂μ
      = priorDensity o.sig s (x i) * ∫⁻ keys, R (i.removeNth x) keys ∂μ := by
    intro x
    simp only [hR]
    rw [lintegral_const_mul]
    exact hRm.comp (measurable_const.prodMk measurable_id)
  have hR' : Measurable (fun y => ∫⁻ keys, R y keys ∂μ) := hRm.lintegral_prod_right'
  simp only [hav]
  have e1 : ∫⁻ x : Fin (d + 1) → ℝ, A.indicator 1 (x i) * F (i.removeNth x) *
        (priorDensity o.sig s (x i) * ∫⁻ keys, R (i.removeNth x) keys ∂μ)
      = (∫⁻ t in A, priorDensity o.sig s t) * ∫⁻ y, F y * ∫⁻ keys, R y keys ∂μ := by
    rw [← lintegral_indicator hA, ← split_coordinate (H := fun y => F y * ∫⁻ keys, R y keys ∂μ) i (hP.indicator hA) (hF.mul hR')]
    refine lintegral_congr fun x => ?_
    by_cases hx : x i ∈ A
    · simp only [Set.indicator_of_mem hx, Pi.one_apply, one_mul]; ring
    · simp only [Set.indicator_of_notMem hx, zero_mul]
  have e2 : ∫⁻ x : Fin (d + 1) → ℝ, F (i.removeNth x) * (priorDensity o.sig s (x i) * ∫⁻ keys, R (i.removeNth x) keys ∂μ)
      = (∫⁻ t, priorDensity o.sig s t) * ∫⁻ y, F y * ∫⁻ keys, R y keys ∂μ := by
    rw [← split_coordinate (H := fun y => F y * ∫⁻ keys, R y keys ∂μ) i hP (hF.mul hR')]
    refine lintegral_congr fun x => ?_
    ring
  rw [e1, e2]
  ring

end
/-- The example of C115 with a second parameter that the likelihood does not read. -/
noncomputable def twoConfig : Config :=
  [("g", ⟨.free, some (1, 10), some (2, 1)⟩), ("h", ⟨.norm 0 1, some (-3, 3), some (0, 1)⟩)]

noncomputable def twoCtx : Ctx.Ctx Bool where
  parConfig := twoConfig
  pm := ⟨twoConfig, [], ["g", "h"], [("g", .fin 5), ("h", .fin 1)]⟩
  needed := ["g"]
  likelihoods := [("a", exObj)]

noncomputable def twoSettings : Settings := ⟨fun _ => none, ["h", "g"], 1, 2, 2⟩

theorem twoReachable : Reachable twoConfig twoCtx.pm := by
  refine ⟨fun _ => none, fun n => if n = "g" then 5 else 1, [], ?_⟩
  have h : clip 5 1 10 = 5 := by norm_num [clip]
  have h' : clip 1 (-3) 3 = 1 := by norm_num [clip]
  have h1 : ¬ ((1 : ℝ) < 0) := by norm_num
  simp [run, mk, mkRaw, samplePrior, sampleLoop, samplePriorOne, clipRange, twoCtx, twoConfig, Prior.isFixed,
    PyDict.keys, PyDict.get?, PyDict.set, drawInit, drawNormal, bind, Except.bind, h1, h, h']

theorem twoUnread : ∀ m obj, (m, obj) ∈ twoCtx.likelihoods → obj.Unread twoConfig.keys "h" := by
  intro m obj h
  simp only [twoCtx, List.mem_singleton, Prod.mk.injEq] at h
  rw [h.2]
  refine ⟨⟨by simp [PyDict.keys], by simp [PyDict.keys], by simp⟩, ?_⟩
  intro m' c hc
  simp only [List.mem_singleton, Prod.mk.injEq] at hc
  rw [hc.2]
  refine ⟨?_, ?_⟩
  · intro key batch p q hpq
    simp only [PyDict.getItem, hpq "g" (by simp)]
  · intro r hr
    simp only [Llh.LComp.needed, List.mem_singleton] at hr
    subst hr
    simp [Llh.callerName, twoConfig, PyDict.keys]

theorem twoFit : parameterFit twoCtx.pm = ["g", "h"] := by
  simp only [parameterFit, twoCtx]
  exact List.mergeSort_of_pairwise (by decide +kernel)

theorem twoSet (x : Fin 2 → ℝ) :
    setParameter twoCtx.pm (.dict ((parameterFit twoCtx.pm).zip ((List.ofFn x).map XF.fin))) .none
      = ({ twoCtx.pm with vals := [("g", .fin (x 0)), ("h", .fin (x 1))] }, .ok ()) := by
  rw [twoFit]
  simp [setParameter, checkExist, twoCtx, twoConfig, PyDict.keys, PyDict.has, PyDict.get?, setList, PyDict.update, PyDict.set]

/-- The posterior of the example: that of the first parameter, times the prior of the second. -/
theorem twoDensity (x : Fin 2 → ℝ) (keys : Nat → Bool) : density twoSettings twoCtx (x, keys)
    = if (1 ≤ x 0 ∧ x 0 ≤ 10) ∧ -3 ≤ x 1 ∧ x 1 ≤ 3 then
        ENNReal.ofReal (Real.exp (exMean 2 (x 0) keys + -(x 1 * x 1) / 2)) else 0 := by
  have hterm : logPriorOver twoSettings.sig { twoCtx.pm with vals := [("g", .fin (x 0)), ("h", .fin (x 1))] } twoSettings.order
      = .ok (if (1 ≤ x 0 ∧ x 0 ≤ 10) ∧ -3 ≤ x 1 ∧ x 1 ≤ 3 then .fin (-(x 1 * x 1) / 2) else .ninf) := by
    by_cases h : 1 ≤ x 0 ∧ x 0 ≤ 10
    · have h1 : ¬ (x 0 < 1 ∨ 10 < x 0) := by rintro (h' | h') <;> linarith [h.1, h.2]
      by_cases h' : -3 ≤ x 1 ∧ x 1 ≤ 3
      · have h2 : ¬ (x 1 < -3 ∨ 3 < x 1) := by rintro (h'' | h'') <;> linarith [h'.1, h'.2]
        simp [logPriorOver, twoCtx, twoConfig, twoSettings, PyDict.getItem, PyDict.get?, logPriorTerm, bind, Except.bind, pure, Except.pure,
          XF.sum_cons, h1, h2, h, h']
      · have h2 : x 1 < -3 ∨ 3 < x 1 := by
          by_contra hn
          simp only [not_or, not_lt] at hn
          exact h' hn
        simp [logPriorOver, twoCtx, twoConfig, twoSettings, PyDict.getItem, PyDict.get?, logPriorTerm, bind, Except.bind, pure, Except.pure,
          XF.sum_cons, h1, h2, h, h']
    · have h1 : x 0 < 1 ∨ 10 < x 0 := by
        by_contra hn
        simp only [not_or, not_lt] at hn
        exact h hn
      by_cases h2 : x 1 < -3 ∨ 3 < x 1
      · simp [logPriorOver, twoCtx, twoConfig, twoSettings, PyDict.getItem, PyDict.get?, logPriorTerm, bind, Except.bind, pure, Except.pure,
          XF.sum_cons, h1, h2, h]
      · simp [logPriorOver, twoCtx, twoConfig, twoSettings, PyDict.getItem, PyDict.get?, logPriorTerm, bind, Except.bind, pure, Except.pure,
          XF.sum_cons, h1, h2, h]
  unfold density posterior
  split
  · rename_i h
    rw [if_pos h] at hterm
    have hev : ∀ k : Bool, Ctx.Evals twoSettings.batch [("g", XF.fin (x 0)), ("h", XF.fin (x 1))] twoCtx.likelihoods k
        (([3 * Real.log (exPred k (x 0)) - exPred k (x 0)]).map XF.fin) := by
      intro k
      refine .cons (k' := k) (Ctx.logL_iff.1 ?_) (.nil _)
      rw [← exObj_logL k 1 (x 0) (by linarith [h.1.1])]
      refine Ctx.C144_likelihood ["g"] "h" exObj ?_ _ _ ?_ ?_ k 1
      · have := twoUnread "a" exObj (by simp [twoCtx])
        refine ⟨this.1, fun m c hm => ⟨(this.2 m c hm).1, fun r hr => ⟨?_, ((this.2 m c hm).2 r hr).2⟩⟩⟩
        simp only [List.mem_singleton, Prod.mk.injEq] at hm
        rw [hm.2] at hr
        simp only [Llh.LComp.needed, List.mem_singleton] at hr
        subst hr
        simp [Llh.callerName]
      · intro k hk
        simp [PyDict.get?, hk.symm]
      · intro k hk
        simp only [List.mem_singleton] at hk
        subst hk
        exact ⟨_, rfl⟩
    have := Ctx.C40_value twoSettings.sig twoSettings.order keys twoCtx _ twoSettings.batch twoSettings.repeats _ _ (twoSet x) hterm (fun i => [3 * Real.log (exPred (keys i) (x 0)) - exPred (keys i) (x 0)])
      (fun i _ => hev (keys i))
    rw [this]
    rfl
  · rename_i h
    rw [if_neg h] at hterm
    rw [Ctx.C40_invalid_prior _ _ keys twoCtx _ _ _ _ .ninf (twoSet x) hterm (by simp) twoCtx.likelihoods]
    rfl

theorem twoMeasurable : Measurable (density twoSettings twoCtx : (Fin 2 → ℝ) × (Nat → Bool) → ℝ≥0∞) := by
  classical
  have h : (density twoSettings twoCtx : (Fin 2 → ℝ) × (Nat → Bool) → ℝ≥0∞)
      = fun q => density (exSettings 2) exCtx ((fun _ => q.1 0 : Fin 1 → ℝ), q.2)
        * priorDensity (fun _ => none) ⟨.norm 0 1, some (-3, 3), some (0, 1)⟩ (q.1 1) := by
    funext q
    rw [show density twoSettings twoCtx q = density twoSettings twoCtx (q.1, q.2) from rfl, twoDensity]
    simp only [density, exPosterior, priorDensity, priorLogDensity]
    by_cases h1 : 1 ≤ q.1 0 ∧ q.1 0 ≤ 10
    · by_cases h2 : -3 ≤ q.1 1 ∧ q.1 1 ≤ 3
      · rw [if_pos ⟨h1, h2⟩, if_pos h1, if_pos h2]
        simp only [valueOf, densityOf, add_zero]
        rw [Real.exp_add, ENNReal.ofReal_mul (Real.exp_pos _).le]
        congr 3
        ring
      · rw [if_neg (fun h => h2 h.2), if_neg h2, mul_zero]
    · rw [if_neg (fun h => h1 h.1), if_neg h1]
      simp [valueOf, densityOf]
  rw [h]
  refine Measurable.mul ((exMeasurable 2).comp ?_) ((priorDensity_measurable _ _).comp ?_)
  · exact Measurable.prodMk (measurable_pi_lambda _ fun _ => (measurable_pi_apply 0).comp measurable_fst) measurable_snd
  · exact (measurable_pi_apply 1).comp measurable_fst

/-- Non-vacuity of C144: the second parameter of the example, whose posterior is its normal prior for every quantity of the first. -/
example (μ : Measure (Nat → Bool)) [IsProbabilityMeasure μ] (A : Set ℝ) (hA : MeasurableSet A) (F : (Fin 1 → ℝ) → ℝ≥0∞) (hF : Measurable F) :
    (∫⁻ t, priorDensity (fun _ => none) ⟨.norm 0 1, some (-3, 3), some (0, 1)⟩ t)
        * ∫⁻ x : Fin 2 → ℝ, A.indicator 1 (x 1) * F ((1 : Fin 2).removeNth x) * ∫⁻ keys, density twoSettings twoCtx (x, keys) ∂μ
      = (∫⁻ t in A, priorDensity (fun _ => none) ⟨.norm 0 1, some (-3, 3), some (0, 1)⟩ t)
        * ∫⁻ x : Fin 2 → ℝ, F ((1 : Fin 2).removeNth x) * ∫⁻ keys, density twoSettings twoCtx (x, keys) ∂μ :=
  C144_posterior twoConfig (by simp [twoConfig, PyDict.keys]) twoSettings twoCtx twoReachable (by rw [twoFit]; rfl)
    (by rw [twoFit]; exact List.Perm.swap _ _ _) 1 "h" (by rw [twoFit]; rfl) _ (by simp [twoConfig, PyDict.get?])
    ⟨⟨_, rfl⟩, by intro m std h; cases h; norm_num, by intro mu sp sn h; cases h⟩ twoUnread twoMeasurable μ A hA F hF

end Verif.Walk
