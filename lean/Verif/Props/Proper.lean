/-
Property theorems for the size of the log posterior (C143).
-/
import Verif.Lemmas.Proper
import Verif.Lemmas.Peak
import Verif.Props.Walk

namespace Verif.Ctx
open Verif Parameter

section
variable {K : Type}

/-- **C143 (bound).** There is one number that no returned log posterior exceeds, whatever parameters are asked for, whatever keys
the simulation uses, and for every batch size and number of repetitions. -/
theorem C143_bound (sig : Solver) (order : List String) (c : Ctx K) (hl : ∀ m o, (m, o) ∈ c.likelihoods → Limited o) :
    ∃ B : ℝ, ∀ pm params keys batch repeats v lp, pm.config = c.pm.config →
      (logPosterior sig order keys { c with pm := pm } params batch repeats).2 = .ok (v, lp) → AtMost B v := by
  obtain ⟨M, hM⟩ := onceLoop_atMost c.likelihoods hl
  refine ⟨M + (order.map fun n => match c.pm.config.get? n with | some s => priorTop sig s.prior | none => 0).sum, ?_⟩
  intro pm params keys batch repeats v lp hcfg h
  have hset : (setParameter pm params .none).1.config = c.pm.config := by rw [setParameter_config, hcfg]
  unfold logPosterior at h
  simp only at h
  split at h
  · cases h
  rename_i pm' hpm
  rw [hpm] at hset
  simp only [bind, Except.bind, pure, Except.pure] at h
  split at h
  · cases h
  rename_i lp' hlp
  split at h
  · cases h; trivial
  rename_i hfin
  split at h
  · cases h
  rename_i v' hv
  cases h
  obtain ⟨q, rfl⟩ := (XF.isFinite_iff lp).1 (not_not.1 hfin)
  have hq := logPriorOver_top hlp
  rw [show pm'.config = c.pm.config from hset] at hq
  have honce : ∀ key w, once { c with pm := pm' } batch key (.fin q) = .ok w →
      AtMost (M + (order.map fun n => match c.pm.config.get? n with | some s => priorTop sig s.prior | none => 0).sum) w := by
    intro key w hw
    simp only [once, bind, Except.bind, pure, Except.pure] at hw
    split at hw
    · cases hw
    rename_i t ht
    cases hw
    have := hM batch _ key (.fin 0) 0 t (le_refl (0 : ℝ)) ht
    rw [zero_add] at this
    exact this.add (show AtMost _ (XF.fin q) from hq)
  generalize M + (order.map fun n => match c.pm.config.get? n with | some s => priorTop sig s.prior | none => 0).sum = B at *
  unfold repeated at hv
  split at hv
  · rename_i hrep
    simp only [bind, Except.bind, pure, Except.pure] at hv
    split at hv
    · cases hv
    rename_i vs hvs
    cases hv
    obtain ⟨hlen, hall⟩ := mapM_ok_get _ _ _ hvs
    rw [List.length_range] at hlen
    have hpos : (0 : ℝ) < vs.length := by
      rw [hlen]; exact_mod_cast (by omega : 0 < repeats.toNat)
    have := (sum_atMost vs (M := B) (by
      intro a ha
      obtain ⟨i, hi⟩ := List.mem_iff_getElem?.1 ha
      obtain ⟨k, _, hk⟩ := hall i a hi
      exact honce _ _ hk)).div hpos
    exact this.mono (le_of_eq (by field_simp))
  · exact honce _ _ hv

/-- **C143 (narrow band).** The condition on the widths is needed: for a band of which one width is zero at one of its ends the
code accepts every energy next to that end, and the log likelihood exceeds every number there. -/
theorem C143_narrow_band (B : ℝ) (key : K) (batch : Int) : ∃ (e v : ℝ), 0 < e ∧ e ≤ 1 ∧ B < v ∧
    Llh.litLogLikelihood [] (.band [0, 1] [0, 0] [0, 1] [0, 1])
      ⟨[("a", fun k _ p => do let v ← p.getItem "energy"; return (k, [[v], [.fin 0], [.fin 1]]))], some "a"⟩ key batch
      [("energy", .fin e)] = .ok (key, .fin v) := by
  have h2pi : (0 : ℝ) < √(2 * Real.pi) := Real.sqrt_pos.2 (by positivity)
  set t : ℝ := max (B + Real.log (√(2 * Real.pi)) + 1) 0 with ht
  have t1 : B + Real.log (√(2 * Real.pi)) + 1 ≤ t := le_max_left _ _
  have hE := Real.exp_pos (-t)
  have hE1 : Real.exp (-t) ≤ 1 := Real.exp_le_one_iff.2 (by linarith [le_max_right (B + Real.log (√(2 * Real.pi)) + 1) 0])
  have hd : Real.log (Llh.twoHalfDensity 0 (Real.exp (-t)) (Real.exp (-t)) 0) = t - Real.log (√(2 * Real.pi)) := by
    unfold Llh.twoHalfDensity
    have : 2 / ((Real.exp (-t) + Real.exp (-t)) * √(2 * Real.pi)) = (Real.exp (-t) * √(2 * Real.pi))⁻¹ := by field_simp; ring
    rw [this]
    simp only [sub_zero, zero_div, ne_eq, OfNat.ofNat_ne_zero, not_false_eq_true, zero_pow, neg_zero, Real.exp_zero, mul_one]
    rw [Real.log_inv, Real.log_mul hE.ne' h2pi.ne', Real.log_exp]
    ring
  refine ⟨Real.exp (-t), t - Real.log (√(2 * Real.pi)), hE, hE1, by linarith, ?_⟩
  have l1 : Llh.interp1d [0, 1] [0, 1] (.fin (Real.exp (-t))) = .fin (Real.exp (-t)) := by
    simp only [Llh.interp1d, List.head?_cons, List.getLast?_cons_cons, List.getLast?_singleton, hE.le, hE1, and_self, if_true, XF.fin.injEq]
    unfold Interp.linear1d
    rw [show min (max (List.countP (fun b => decide (b ≤ Real.exp (-t))) [0, 1]) 1) ([(0 : ℝ), 1].length - 1) = 1 by
      rw [show [(0 : ℝ), 1].length - 1 = 1 from rfl]; omega]
    simp [Interp.gather, not_lt.2 hE.le, not_lt.2 hE1]
  have l0 : Llh.interp1d [0, 1] [0, 0] (.fin (Real.exp (-t))) = .fin 0 := by
    simp only [Llh.interp1d, List.head?_cons, List.getLast?_cons_cons, List.getLast?_singleton, hE.le, hE1, and_self, if_true, XF.fin.injEq]
    unfold Interp.linear1d
    rw [show min (max (List.countP (fun b => decide (b ≤ Real.exp (-t))) [0, 1]) 1) ([(0 : ℝ), 1].length - 1) = 1 by
      rw [show [(0 : ℝ), 1].length - 1 = 1 from rfl]; omega]
    simp [Interp.gather, not_lt.2 hE.le, not_lt.2 hE1]
  have hb : Llh.bandAssert [0, 1] [0, 1] [0, 1] [.fin (Real.exp (-t))] = true := by
    simp [Llh.bandAssert, l1, hE]
  have hv : Llh.bandLogpdf [0, 1] [0, 0] [0, 1] [0, 1] (.fin (Real.exp (-t))) (.fin 0) = .fin (t - Real.log (√(2 * Real.pi))) := by
    simp only [Llh.bandLogpdf, l0, l1, XF.not_isNaN_fin, if_false]
    rw [Llh.C39_two_half_logpdf _ _ _ _ hE hE, hd]
  have h1 : Llh.common [1, 1] = .ok 1 := Llh.common_same (by simp) (by simp)
  simp [Llh.litLogLikelihood, Llh.simulateYields, Llh.replaceAlias, Llh.logpdf, h1, Except.map, Llh.spread, hb, hv, bind, Except.bind, pure, Except.pure,
    PyDict.getItem, PyDict.get?, XF.sum_cons]

/-- Non-vacuity of C143: a literature likelihood with a band that has positive widths is among those meant. -/
example : Limited (.lit [] (.band [1, 2] [5, 6] [1, 2] [1, 1]) ["energy"]
    ⟨[("a", fun k _ p => do let v ← p.getItem "energy"; return (k, [[v], [.fin 5], [.fin (9 / 10)]]))], some "a"⟩ : Obj Bool) := by
  refine ⟨⟨by simp [PyDict.keys], by simp [PyDict.keys], by simp⟩, ⟨by simp, rfl, rfl, by norm_num, by norm_num, by norm_num⟩, 1, ?_⟩
  intro n c key p k e y f hm h
  simp only [List.mem_singleton, Prod.mk.injEq] at hm
  obtain ⟨_, rfl⟩ := hm
  simp only [bind, Except.bind, pure, Except.pure] at h
  split at h
  · cases h
  · cases h
    exact ⟨by simp, by simp, by simp, fun x hx => .inr ⟨9 / 10, by norm_num, by norm_num, by simpa using hx⟩⟩

end
end Verif.Ctx

namespace Verif.Walk
open Verif Parameter MeasureTheory
open scoped ENNReal

variable {K : Type} [MeasurableSpace K] {d : Nat}

/-- Where the density does not vanish, every fitted parameter is in its allowed range. -/
theorem density_inside (config : Config) (hc : config.keys.Nodup) (o : Settings) (c : Ctx.Ctx K) (hr : Reachable config c.pm)
    (hd : (parameterFit c.pm).length = d) (ho : o.order.Perm (parameterFit c.pm)) (i : Fin d) :
    ∃ a b : ℝ, ∀ (x : Fin d → ℝ) keys, density o c (x, keys) ≠ 0 → a ≤ x i ∧ x i ≤ b := by
  have hi : i.val < (parameterFit c.pm).length := by rw [hd]; exact i.2
  obtain ⟨n, hn⟩ : ∃ n, (parameterFit c.pm)[i.val]? = some n := ⟨_, List.getElem?_eq_getElem hi⟩
  have hmem : n ∈ o.order := ho.mem_iff.2 (List.mem_of_getElem? hn)
  obtain ⟨s, hs, _⟩ := (mem_parameterFit hr.inv hc n).1 (List.mem_of_getElem? hn)
  have key : ∀ (x : Fin d → ℝ) keys, density o c (x, keys) ≠ 0 →
      ∃ lo hi, s.allowed = some (lo, hi) ∧ lo ≤ x i ∧ x i ≤ hi := by
    intro x keys hne
    have h5 := C05_fit_vector_round_trip config hc c.pm hr ((List.ofFn x).map XF.fin) (by simp [hd])
    have he := evalAt_eq hr.inv hc ((List.ofFn x).map XF.fin)
    have hinv : Inv config (evalAt c.pm ((List.ofFn x).map XF.fin)).1 := setParameter_inv _ _ hr.inv
    have hval : (evalAt c.pm ((List.ofFn x).map XF.fin)).1.vals.get? n = some (.fin (x i)) := by
      rw [he]
      refine PyDict.get?_update_nodup _ _ ?_ ?_
      · rw [zip_fst_nodup hr.inv hc _ (by simp [hd])]; exact parameterFit_nodup hr.inv hc
      · rw [List.mem_iff_getElem?]
        refine ⟨i.val, ?_⟩
        rw [List.getElem?_zip_eq_some]
        exact ⟨hn, by simp [List.getElem?_ofFn]⟩
    unfold density posterior at hne
    unfold Ctx.logPosterior at hne
    have hset : setParameter c.pm (.dict ((parameterFit c.pm).zip ((List.ofFn x).map XF.fin))) .none
        = ((evalAt c.pm ((List.ofFn x).map XF.fin)).1, .ok ()) := Prod.ext rfl h5.1
    simp only [hset, bind, Except.bind, pure, Except.pure] at hne
    split at hne
    · simp [valueOf, densityOf] at hne
    rename_i lp hlp
    split at hne
    · simp [valueOf, densityOf] at hne
    rename_i hfin
    obtain ⟨q, rfl⟩ := (XF.isFinite_iff lp).1 (not_not.1 hfin)
    obtain ⟨g, hg, _⟩ := logPriorOver_finite hlp
    have := hg n hmem
    simp only [termOf, PyDict.getItem, bind, Except.bind, hval, hinv.cfg, hs] at this
    obtain ⟨lo, hi, h1, h2, h3, _⟩ := logPriorTerm_finite this
    exact ⟨lo, hi, h1, h2, h3⟩
  cases hal : s.allowed with
  | none =>
    refine ⟨0, 0, fun x keys h => ?_⟩
    obtain ⟨lo, hi, h1, _⟩ := key x keys h
    rw [hal] at h1; cases h1
  | some r =>
    refine ⟨r.1, r.2, fun x keys h => ?_⟩
    obtain ⟨lo, hi, h1, h2⟩ := key x keys h
    rw [hal] at h1; cases h1
    exact h2

/-- **C143 (proper).** The density that the sampler averages over the keys has a finite integral over the fitted parameters: the
posterior can be normalised. -/
theorem C143_proper (config : Config) (hc : config.keys.Nodup) (o : Settings) (c : Ctx.Ctx K) (hr : Reachable config c.pm)
    (hd : (parameterFit c.pm).length = d) (ho : o.order.Perm (parameterFit c.pm))
    (hl : ∀ m obj, (m, obj) ∈ c.likelihoods → Ctx.Limited obj) (μ : Measure (Nat → K)) [IsProbabilityMeasure μ] :
    ∫⁻ x : Fin d → ℝ, ∫⁻ keys, density o c (x, keys) ∂μ < ⊤ := by
  obtain ⟨B, hB⟩ := Ctx.C143_bound o.sig o.order c hl
  choose a b hab using density_inside config hc o c hr hd ho
  have hle : ∀ (x : Fin d → ℝ) keys, density o c (x, keys)
      ≤ (Set.Icc a b).indicator (fun _ => ENNReal.ofReal (Real.exp B)) x := by
    intro x keys
    by_cases h0 : density o c (x, keys) = 0
    · rw [h0]; exact zero_le
    · have hx : x ∈ Set.Icc a b := ⟨fun i => (hab i x keys h0).1, fun i => (hab i x keys h0).2⟩
      rw [Set.indicator_of_mem hx]
      unfold density at h0 ⊢
      cases hp : posterior o c x keys with
      | error e => rw [hp] at h0; simp [valueOf, densityOf] at h0
      | ok r =>
        obtain ⟨v, lp⟩ := r
        have := hB c.pm _ keys o.batch o.repeats v lp rfl hp
        simp only [valueOf]
        cases v with
        | fin v => exact ENNReal.ofReal_le_ofReal (Real.exp_le_exp.2 this)
        | _ => exact zero_le
  calc ∫⁻ x : Fin d → ℝ, ∫⁻ keys, density o c (x, keys) ∂μ
      ≤ ∫⁻ x : Fin d → ℝ, ∫⁻ _, (Set.Icc a b).indicator (fun _ => ENNReal.ofReal (Real.exp B)) x ∂μ :=
        lintegral_mono fun x => lintegral_mono fun keys => hle x keys
    _ = ∫⁻ x : Fin d → ℝ, (Set.Icc a b).indicator (fun _ => ENNReal.ofReal (Real.exp B)) x := by simp
    _ = ENNReal.ofReal (Real.exp B) * volume (Set.Icc a b) := by
        rw [lintegral_indicator measurableSet_Icc]; simp
    _ < ⊤ := ENNReal.mul_lt_top ENNReal.ofReal_lt_top (by
        rw [Real.volume_Icc_pi]
        exact ENNReal.prod_lt_top fun i _ => ENNReal.ofReal_lt_top)

/-- Non-vacuity of C143: the likelihood with three events of C115, two evaluations for each position. -/
example (μ : Measure (Nat → Bool)) [IsProbabilityMeasure μ] :
    ∫⁻ x : Fin 1 → ℝ, ∫⁻ keys, density (exSettings 2) exCtx (x, keys) ∂μ < ⊤ :=
  C143_proper exConfig (by simp [exConfig, PyDict.keys]) (exSettings 2) exCtx exReachable (by simp [parameterFit, exCtx])
    (by simp [parameterFit, exCtx, exSettings]) (fun m obj h => by
      simp only [exCtx, List.mem_singleton, Prod.mk.injEq] at h
      rw [h.2]
      intro d hd
      simp only [List.flatten_cons, List.flatten_nil, List.append_nil, List.mem_singleton] at hd
      rw [hd]; norm_num) μ

end Verif.Walk
