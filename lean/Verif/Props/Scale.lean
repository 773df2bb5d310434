/-
C147: a common factor on all rates, and the posterior of a single rate.
-/
import Verif.Lemmas.Scale
import Verif.Lemmas.Unread
import Verif.Props.Peak
import Verif.Props.Unread
import Mathlib.Probability.ConditionalProbability

namespace Verif.Llh
open Verif Comp

section
variable {K : Type}

/-- **C147 (factor).** In the situation of C138 let the log posterior be finite at some parameters.  If all rates are multiplied by a
common factor `u`, it changes by the change of the log prior, plus the number of data events in all bins times the logarithm of `u`, minus
`u - 1` times the number of events that was expected in all bins in the mean of the repetitions. -/
theorem C147_factor (c : Ctx.Ctx K) (fs : List (Fitted K)) (hfs : List.Forall₂ (fun e f => Fitted.Made f e) c.likelihoods fs)
    (hnames : (fs.map Fitted.name).Nodup) (hfree : ∀ f ∈ fs, RateFree f.setup f.parts) :
    ∃ order : String → String → List Plugin,
      (∀ f ∈ fs, ∀ a, Part.sim a ∈ f.parts → Topological a.registry (f.setup.binsOn ++ ["eff"]) (order f.name a.comp)) ∧
      ∀ (keys : Nat → K) batch q0, (∀ f ∈ fs, ∀ p ∈ f.parts, p.name ++ "_rate" ∈ (replaceAlias f.setup.al q0).keys) →
        ∃ sss : Nat → List (List (Sample ℝ)),
          (∀ i, ∃ key', DrawsAll order batch q0 fs (keys i) (sss i) key') ∧
          ∀ repeats, (∀ i < Ctx.evaluations repeats, ∀ ss ∈ sss i, ∀ s ∈ ss, s.Normalisable) →
            ∀ sig ord params0 pm0 params pm q u v0 lp0 lp,
              Parameter.setParameter c.pm params0 .none = (pm0, .ok ()) → pm0.vals = floats q0 →
              Parameter.setParameter c.pm params .none = (pm, .ok ()) → pm.vals = floats q →
              (∀ f ∈ fs, Varies f.setup f.parts q0 q) → Scaled u fs q0 q → 0 < u →
              (Ctx.logPosterior sig ord keys c params0 batch repeats).2 = .ok (.fin v0, .fin lp0) →
              Parameter.logPriorOver sig pm ord = .ok (.fin lp) →
              (Ctx.logPosterior sig ord keys c params batch repeats).2 =
                .ok (.fin (v0 + (lp - lp0) + observedAll fs * Real.log u -
                  (u - 1) * meanOf (Ctx.evaluations repeats) (fun i => expectedAll q0 fs (sss i))), .fin lp) := by
  obtain ⟨order, h1, h2⟩ := C138_rates c fs hfs hnames hfree
  refine ⟨order, h1, fun keys batch q0 hr0 => ?_⟩
  obtain ⟨sss, d, hv⟩ := h2 keys batch q0 hr0
  refine ⟨sss, d, ?_⟩
  intro repeats hn sig ord params0 pm0 params pm q u v0 lp0 lp hset0 hq0 hset hq hvar hs hu e0 hlp
  obtain ⟨lp', hl, hlp0⟩ := finite_posterior hset0 e0
  cases hl
  have hself : ∀ f ∈ fs, Varies f.setup f.parts q0 q0 := fun f hf => ⟨fun _ _ => rfl, hr0 f hf⟩
  have hp : ∀ i < Ctx.evaluations repeats, AllPositive q0 fs (sss i) := by
    intro i hi
    by_contra hneg
    rw [(hv repeats hn sig ord params0 pm0 _ q0 hset0 hq0 hlp0 hself).2 ⟨i, hi, hneg⟩] at e0
    cases e0
  rw [(hv repeats hn sig ord params0 pm0 _ q0 hset0 hq0 hlp0 hself).1 hp] at e0
  rw [(hv repeats hn sig ord params pm _ q hset hq hlp hvar).1 fun i hi => allPositive_factor hs (hp i hi) hu]
  have hpos : 0 < Ctx.evaluations repeats := by unfold Ctx.evaluations; omega
  have e : meanOf (Ctx.evaluations repeats) (fun i => logLAll q fs (sss i)) =
      meanOf (Ctx.evaluations repeats) (fun i => logLAll q0 fs (sss i)) + observedAll fs * Real.log u -
        (u - 1) * meanOf (Ctx.evaluations repeats) (fun i => expectedAll q0 fs (sss i)) := by
    rw [← meanOf_factor _ hpos]
    rw [meanOf_eq, meanOf_eq]
    congr 1
    refine Finset.sum_congr rfl fun i hi => ?_
    exact logLAll_factor hu hs (hp i (Finset.mem_range.1 hi))
  rw [e]
  simp only [Except.ok.injEq, Prod.mk.injEq, XF.fin.injEq] at e0 ⊢
  refine ⟨?_, trivial⟩
  rw [← e0.1]
  ring

/-- **C147 (balance).** Among sets of parameters whose rates differ by a common factor and whose log prior is the same, the log posterior is
largest, and only there, where the number of events expected in all bins, in the mean of the repetitions, is the number of data events in
them. -/
theorem C147_balance (c : Ctx.Ctx K) (fs : List (Fitted K)) (hfs : List.Forall₂ (fun e f => Fitted.Made f e) c.likelihoods fs)
    (hnames : (fs.map Fitted.name).Nodup) (hfree : ∀ f ∈ fs, RateFree f.setup f.parts) :
    ∃ order : String → String → List Plugin,
      (∀ f ∈ fs, ∀ a, Part.sim a ∈ f.parts → Topological a.registry (f.setup.binsOn ++ ["eff"]) (order f.name a.comp)) ∧
      ∀ (keys : Nat → K) batch q0, (∀ f ∈ fs, ∀ p ∈ f.parts, p.name ++ "_rate" ∈ (replaceAlias f.setup.al q0).keys) →
        ∃ sss : Nat → List (List (Sample ℝ)),
          (∀ i, ∃ key', DrawsAll order batch q0 fs (keys i) (sss i) key') ∧
          ∀ repeats, (∀ i < Ctx.evaluations repeats, ∀ ss ∈ sss i, ∀ s ∈ ss, s.Normalisable) →
            ∀ sig ord params0 pm0 params pm q u v0 v lp,
              Parameter.setParameter c.pm params0 .none = (pm0, .ok ()) → pm0.vals = floats q0 →
              Parameter.setParameter c.pm params .none = (pm, .ok ()) → pm.vals = floats q →
              (∀ f ∈ fs, Varies f.setup f.parts q0 q) → Scaled u fs q0 q → 0 < u →
              (Ctx.logPosterior sig ord keys c params0 batch repeats).2 = .ok (.fin v0, .fin lp) →
              (Ctx.logPosterior sig ord keys c params batch repeats).2 = .ok (.fin v, .fin lp) →
              0 < observedAll fs →
              meanOf (Ctx.evaluations repeats) (fun i => expectedAll q0 fs (sss i)) = observedAll fs →
              v ≤ v0 ∧ (v = v0 ↔ u = 1) := by
  obtain ⟨order, h1, h2⟩ := C147_factor c fs hfs hnames hfree
  refine ⟨order, h1, fun keys batch q0 hr0 => ?_⟩
  obtain ⟨sss, d, hv⟩ := h2 keys batch q0 hr0
  refine ⟨sss, d, ?_⟩
  intro repeats hn sig ord params0 pm0 params pm q u v0 v lp hset0 hq0 hset hq hvar hs hu e0 e1 hN hM
  obtain ⟨lp', hl, hlp⟩ := finite_posterior hset e1
  cases hl
  rw [hv repeats hn sig ord params0 pm0 params pm q u v0 _ _ hset0 hq0 hset hq hvar hs hu e0 hlp, hM] at e1
  simp only [Except.ok.injEq, Prod.mk.injEq, XF.fin.injEq, and_true] at e1
  obtain ⟨m1, m2⟩ := factor_max hN hN u hu
  rw [div_self hN.ne', Real.log_one, mul_zero, zero_sub] at m1 m2
  constructor
  · linarith
  · rw [← m2]
    constructor <;> intro h <;> linarith

end
end Verif.Llh

namespace Verif.Walk
open Verif Parameter MeasureTheory ProbabilityTheory Llh
open scoped ENNReal

section
variable {K : Type}

theorem oneRate_rates {n : String} {f : Fitted K} (h : OneRate n f) (q : PyDict String ℝ) (r : ℝ) :
    ratesOf f.parts (replaceAlias f.setup.al (q.set n r)) = [r] := by
  obtain ⟨hal, p, hp, hn⟩ := h
  rw [hal, hp]
  simp [ratesOf, replaceAlias, hn]

theorem oneRate_varies {n : String} {f : Fitted K} (h : OneRate n f) (q : PyDict String ℝ) (r : ℝ) :
    Varies f.setup f.parts q (q.set n r) := by
  obtain ⟨hal, p, hp, hn⟩ := h
  constructor
  · intro k hk
    have hne : n ≠ k := by
      rintro rfl
      exact hk ⟨p, by simp [hp], hn.symm⟩
    rw [hal]
    change q.get? k = (q.set n r).get? k
    rw [PyDict.get?_set_ne _ _ hne]
  · intro p' hp'
    rw [hp, List.mem_singleton] at hp'
    subst hp'
    rw [hal, hn]
    exact (PyDict.mem_keys_iff_exists _ _).2 ⟨r, PyDict.get?_set_self _ _ _⟩

theorem scaled_rate {n : String} {fs : List (Fitted K)} (h : ∀ f ∈ fs, OneRate n f) (q : PyDict String ℝ) (r : ℝ) :
    Scaled r fs (q.set n 1) (q.set n r) := by
  intro f hf
  rw [oneRate_rates (h f hf), oneRate_rates (h f hf)]
  simp

theorem set_one {pm : PM} {q : PyDict String ℝ} (hq : pm.vals = floats q) {n : String} (hn : n ∈ q.keys) (r : ℝ) :
    setParameter pm (.dict [(n, .fin r)]) .none = ({ pm with vals := floats (q.set n r) }, .ok ()) := by
  have hh : pm.vals.has n = true := by
    rw [PyDict.has_iff, PyDict.mem_keys_iff_exists, hq]
    obtain ⟨x, hx⟩ := (PyDict.mem_keys_iff_exists _ _).1 hn
    exact ⟨.fin x, by rw [floats_get?, hx]; rfl⟩
  have : (pm.vals.set n (.fin r)) = floats (q.set n r) := by rw [hq, floats_set]
  simp [setParameter, checkExist, PyDict.keys, hh, setList, PyDict.update, this]

theorem observedAll_nonneg (fs : List (Fitted K)) : 0 ≤ observedAll fs := by
  refine List.sum_nonneg ?_
  intro x hx
  obtain ⟨f, _, rfl⟩ := List.mem_map.1 hx
  refine List.sum_nonneg ?_
  intro y hy
  obtain ⟨b, _, rfl⟩ := List.mem_map.1 hy
  exact Nat.cast_nonneg _

/-- **C147 (one rate).** In a context whose likelihoods all have one component, with the same rate, and in which this rate is the only fitted
parameter, the posterior density as a function of the rate, for given keys, is its prior density times a Gamma density: its shape is the
number of data events in all bins plus one, and its inverse scale is the number of events expected at unit rate in the mean of the
repetitions. -/
theorem C147_one_rate (c : Ctx.Ctx K) (fs : List (Fitted K)) (hfs : List.Forall₂ (fun e f => Fitted.Made f e) c.likelihoods fs)
    (hnames : (fs.map Fitted.name).Nodup) (hfree : ∀ f ∈ fs, RateFree f.setup f.parts) (n : String) (hone : ∀ f ∈ fs, OneRate n f)
    (q : PyDict String ℝ) (hq : c.pm.vals = floats q) (hnq : n ∈ q.keys) (s : Setting) (hs : c.pm.config.get? n = some s)
    (hfit : parameterFit c.pm = [n]) :
    ∃ order : String → String → List Comp.Plugin,
      (∀ f ∈ fs, ∀ a, Part.sim a ∈ f.parts → Topological a.registry (f.setup.binsOn ++ ["eff"]) (order f.name a.comp)) ∧
      ∀ (o : Settings) (keys : Nat → K), o.order = [n] → EvalOK o.sig s →
        ∃ sss : Nat → List (List (Sample ℝ)),
          (∀ i, ∃ key', DrawsAll order o.batch q fs (keys i) (sss i) key') ∧
          ((∀ i < Ctx.evaluations o.repeats, (∀ ss ∈ sss i, ∀ s ∈ ss, s.Normalisable) ∧ AllPositive (q.set n 1) fs (sss i)) →
            0 < meanOf (Ctx.evaluations o.repeats) (fun i => expectedAll (q.set n 1) fs (sss i)) →
            ∃ k : ℝ, 0 < k ∧ ∀ r : ℝ, r ≠ 0 → density o c ((fun _ : Fin 1 => r), keys) =
              ENNReal.ofReal k * priorDensity o.sig s r * gammaPDF (observedAll fs + 1)
                (meanOf (Ctx.evaluations o.repeats) (fun i => expectedAll (q.set n 1) fs (sss i))) r) := by
  obtain ⟨order, h1, h2⟩ := C138_rates c fs hfs hnames hfree
  refine ⟨order, h1, fun o keys ho hok => ?_⟩
  obtain ⟨sss, d, hv⟩ := h2 keys o.batch q fun f hf p hp => by
    obtain ⟨hal, p', hp', hn⟩ := hone f hf
    rw [hp', List.mem_singleton] at hp
    rw [hal, hp, hn]
    exact hnq
  refine ⟨sss, d, fun hgood hA => ?_⟩
  set A := meanOf (Ctx.evaluations o.repeats) (fun i => expectedAll (q.set n 1) fs (sss i)) with hAdef
  set N := observedAll fs with hN
  set L := meanOf (Ctx.evaluations o.repeats) (fun i => logLAll (q.set n 1) fs (sss i)) with hL
  have hN0 : 0 ≤ N := observedAll_nonneg fs
  have hG : 0 < Real.Gamma (N + 1) := Real.Gamma_pos_of_pos (by linarith)
  have hAp : 0 < A ^ (N + 1) := Real.rpow_pos_of_pos hA _
  have hpos : 0 < Ctx.evaluations o.repeats := by unfold Ctx.evaluations; omega
  obtain ⟨⟨lo, hi⟩, hal⟩ := hok.1
  refine ⟨Real.exp (L + A) * Real.Gamma (N + 1) / A ^ (N + 1), by positivity, fun r hr => ?_⟩
  have hdens : density o c ((fun _ : Fin 1 => r), keys) =
      densityOf (valueOf (Ctx.logPosterior o.sig [n] keys c (.dict [(n, .fin r)]) o.batch o.repeats).2) := by
    simp [density, posterior, hfit, ho]
  rw [hdens]
  have hterm : termOf o.sig { c.pm with vals := floats (q.set n r) } n = logPriorTerm o.sig s (.fin r) := by
    unfold termOf
    simp only [bind, Except.bind, PyDict.getItem, floats_get?, PyDict.get?_set_self, hs, Option.map]
  by_cases hin : lo ≤ r ∧ r ≤ hi
  · have hlp : logPriorOver o.sig { c.pm with vals := floats (q.set n r) } [n] = .ok (.fin (priorLogDensity o.sig s.prior r)) := by
      have := logPriorOver_of_terms (sig := o.sig) (pm := { c.pm with vals := floats (q.set n r) }) (ord := [n])
        (fun _ => priorLogDensity o.sig s.prior r) (by
          intro m hm
          rw [List.mem_singleton] at hm
          subst hm
          rw [hterm]
          exact logPriorTerm_inside o.sig s r lo hi hal hok hin.1 hin.2)
      simpa using this
    have hval := hv o.repeats (fun i hi => (hgood i hi).1) o.sig [n] (.dict [(n, .fin r)]) _ _ (q.set n r) (set_one hq hnq r) rfl hlp
      fun f hf => oneRate_varies (hone f hf) q r
    have hprior : priorDensity o.sig s r = ENNReal.ofReal (Real.exp (priorLogDensity o.sig s.prior r)) := by
      simp only [priorDensity, hal, hin, and_self, if_true]
    rcases lt_or_gt_of_ne hr with hneg | hp
    · rw [gammaPDF_of_neg hneg, mul_zero, hval.2]
      · rfl
      · by_contra hall
        refine hA.ne' ?_
        rw [hAdef, meanOf_eq, Finset.sum_eq_zero, zero_div]
        intro i hi
        by_contra hne
        refine hall ⟨i, Finset.mem_range.1 hi, ?_⟩
        exact not_allPositive hneg.le (scaled_rate hone q r) (hgood i (Finset.mem_range.1 hi)).2 hne
    · rw [hval.1 fun i hi => allPositive_factor (scaled_rate hone q r) (hgood i hi).2 hp]
      have e : meanOf (Ctx.evaluations o.repeats) (fun i => logLAll (q.set n r) fs (sss i)) = L + N * Real.log r - (r - 1) * A := by
        rw [hL, hAdef, ← meanOf_factor _ hpos, meanOf_eq, meanOf_eq]
        congr 1
        refine Finset.sum_congr rfl fun i hi => ?_
        exact logLAll_factor hp (scaled_rate hone q r) (hgood i (Finset.mem_range.1 hi)).2
      rw [e, hprior, gammaPDF_of_nonneg hp.le]
      simp only [valueOf, densityOf]
      rw [← ENNReal.ofReal_mul (by positivity), ← ENNReal.ofReal_mul (by positivity)]
      congr 1
      rw [show N + 1 - 1 = N by ring, Real.rpow_def_of_pos hp N]
      rw [show L + N * Real.log r - (r - 1) * A + priorLogDensity o.sig s.prior r =
        (L + A) + priorLogDensity o.sig s.prior r + Real.log r * N + -(A * r) by ring, Real.exp_add, Real.exp_add, Real.exp_add]
      field_simp
  · have hprior : priorDensity o.sig s r = 0 := by simp only [priorDensity, hal, hin, if_false]
    rw [hprior, mul_zero, zero_mul]
    have hlp : logPriorOver o.sig { c.pm with vals := floats (q.set n r) } [n] = .ok .ninf := by
      have : logPriorTerm o.sig s (.fin r) = .ok .ninf := by
        refine logPriorTerm_outside o.sig s _ lo hi hal (.inr (.inr ⟨r, rfl, ?_⟩))
        by_contra h
        push Not at h
        exact hin h
      have e : logPriorOver o.sig { c.pm with vals := floats (q.set n r) } [n] =
          (do let terms ← [n].mapM (termOf o.sig { c.pm with vals := floats (q.set n r) }); return XF.sum terms : Res XF) := rfl
      rw [e]
      simp [hterm, this, bind, Except.bind, pure, Except.pure, XF.sum_cons]
    unfold Ctx.logPosterior
    rw [set_one hq hnq r]
    simp [hlp, bind, Except.bind, pure, Except.pure, valueOf, densityOf]

/-- **C147 (gamma).** If moreover the prior of the rate is flat in its allowed range, the posterior of the rate for given keys is this Gamma law,
conditioned on the allowed range. -/
theorem C147_gamma (c : Ctx.Ctx K) (fs : List (Fitted K)) (hfs : List.Forall₂ (fun e f => Fitted.Made f e) c.likelihoods fs)
    (hnames : (fs.map Fitted.name).Nodup) (hfree : ∀ f ∈ fs, RateFree f.setup f.parts) (n : String) (hone : ∀ f ∈ fs, OneRate n f)
    (q : PyDict String ℝ) (hq : c.pm.vals = floats q) (hnq : n ∈ q.keys) (s : Setting) (hs : c.pm.config.get? n = some s)
    (hfit : parameterFit c.pm = [n]) (lo hi : ℝ) (hal : s.allowed = some (lo, hi)) (hflat : ¬ Curved s.prior) :
    ∃ order : String → String → List Comp.Plugin,
      (∀ f ∈ fs, ∀ a, Part.sim a ∈ f.parts → Topological a.registry (f.setup.binsOn ++ ["eff"]) (order f.name a.comp)) ∧
      ∀ (o : Settings) (keys : Nat → K), o.order = [n] →
        ∃ sss : Nat → List (List (Sample ℝ)),
          (∀ i, ∃ key', DrawsAll order o.batch q fs (keys i) (sss i) key') ∧
          ((∀ i < Ctx.evaluations o.repeats, (∀ ss ∈ sss i, ∀ s ∈ ss, s.Normalisable) ∧ AllPositive (q.set n 1) fs (sss i)) →
            0 < meanOf (Ctx.evaluations o.repeats) (fun i => expectedAll (q.set n 1) fs (sss i)) →
            ∀ B : Set ℝ, MeasurableSet B →
              (∫⁻ r in B, density o c ((fun _ : Fin 1 => r), keys)) / (∫⁻ r, density o c ((fun _ : Fin 1 => r), keys)) =
                (cond (gammaMeasure (observedAll fs + 1)
                  (meanOf (Ctx.evaluations o.repeats) (fun i => expectedAll (q.set n 1) fs (sss i)))) (Set.Icc lo hi)) B) := by
  obtain ⟨order, h1, h2⟩ := C147_one_rate c fs hfs hnames hfree n hone q hq hnq s hs hfit
  refine ⟨order, h1, fun o keys ho => ?_⟩
  have hok : EvalOK o.sig s := by
    refine ⟨⟨_, hal⟩, ?_, ?_⟩
    · intro m std h; rw [h] at hflat; exact absurd trivial hflat
    · intro m a b h; rw [h] at hflat; exact absurd trivial hflat
  obtain ⟨sss, d, hd⟩ := h2 o keys ho hok
  refine ⟨sss, d, fun hgood hA B hB => ?_⟩
  obtain ⟨k, hk, hdens⟩ := hd hgood hA
  set A := meanOf (Ctx.evaluations o.repeats) (fun i => expectedAll (q.set n 1) fs (sss i)) with hAdef
  have hflat0 : ∀ r, priorLogDensity o.sig s.prior r = 0 := by
    intro r
    cases hp : s.prior <;> first | rfl | (rw [hp] at hflat; exact absurd trivial hflat)
  have key : ∀ B : Set ℝ, MeasurableSet B → ∫⁻ r in B, density o c ((fun _ : Fin 1 => r), keys) =
      ENNReal.ofReal k * gammaMeasure (observedAll fs + 1) A (Set.Icc lo hi ∩ B) := by
    intro B hB
    have hm : Measurable (gammaPDF (observedAll fs + 1) A) := (measurable_gammaPDFReal _ _).ennreal_ofReal
    rw [gammaMeasure, withDensity_apply _ (measurableSet_Icc.inter hB), ← lintegral_const_mul _ hm, ← Measure.restrict_restrict measurableSet_Icc,
      ← lintegral_indicator measurableSet_Icc]
    refine lintegral_congr_ae ?_
    have h0 : ∀ᵐ r ∂(volume.restrict B), r ≠ (0 : ℝ) := ae_restrict_of_ae (Measure.ae_ne volume 0)
    filter_upwards [h0] with r hr
    rw [hdens r hr]
    by_cases hin : r ∈ Set.Icc lo hi
    · rw [Set.indicator_of_mem hin]
      have : priorDensity o.sig s r = 1 := by
        have hin' : lo ≤ r ∧ r ≤ hi := hin
        simp only [priorDensity, hal, hin', and_self, if_true, hflat0, Real.exp_zero, ENNReal.ofReal_one]
      rw [this, mul_one]
    · rw [Set.indicator_of_notMem hin]
      have : priorDensity o.sig s r = 0 := by
        have hin' : ¬ (lo ≤ r ∧ r ≤ hi) := hin
        simp only [priorDensity, hal, hin', if_false]
      rw [this, mul_zero, zero_mul]
  have hu := key Set.univ MeasurableSet.univ
  rw [Measure.restrict_univ, Set.inter_univ] at hu
  rw [key B hB, hu, ENNReal.mul_div_mul_left _ _ (by simpa using hk) ENNReal.ofReal_ne_top, cond_apply measurableSet_Icc, ENNReal.div_eq_inv_mul]

end

/-! ### A concrete case: the likelihood of C112 with two data events, with a flat prior on its rate -/

noncomputable def flatPM : PM := ⟨[("er_rate", ⟨.free, some (0, 10), some (3, 1)⟩)], [], ["er_rate"], [("er_rate", .fin 3)]⟩

/-- Non-vacuity of C147: with two repetitions that differ the rate has a Gamma law of shape 3, cut at 10. -/
example (eq : Equi ℝ) : ∃ c : Ctx.Ctx Bool, ∀ B : Set ℝ, MeasurableSet B →
    (∫⁻ r in B, density ⟨fun _ => none, ["er_rate"], 10, 2, 2⟩ c ((fun _ : Fin 1 => r), fun i => i == 0)) /
      (∫⁻ r, density ⟨fun _ => none, ["er_rate"], 10, 2, 2⟩ c ((fun _ : Fin 1 => r), fun i => i == 0)) =
      (cond (gammaMeasure 3 1) (Set.Icc 0 10)) B := by
  obtain ⟨st, g', hb⟩ := noisyBuild
  obtain ⟨b, hinit, hbins, hdata⟩ := noisyInit eq
  let f : Fitted Bool := ⟨"l", noisySetup, [.sim exArgs], b.bins, b.data⟩
  let c : Ctx.Ctx Bool := ⟨[], flatPM, [], [("l", .binned [] b.dataHist st)]⟩
  have one : ∀ {P : Fitted Bool → Prop}, P f → ∀ f' ∈ [f], P f' := by
    intro P h f' hf'
    simp only [List.mem_singleton] at hf'
    subst hf'
    exact h
  have hfs : List.Forall₂ (fun e f => Fitted.Made f e) c.likelihoods [f] := .cons ⟨eq, _, _, b, {}, st, g', hinit, rfl, rfl, by
    simpa only [f, hbins] using noisyProper, hb, rfl⟩ .nil
  obtain ⟨order, h1, h2⟩ := C147_gamma c [f] hfs (by simp) (one fun _ _ _ _ => rfl) "er_rate" (one ⟨rfl, .sim exArgs, rfl, rfl⟩)
    [("er_rate", 3)] rfl (by simp [PyDict.keys]) ⟨.free, some (0, 10), some (3, 1)⟩ (by simp [c, flatPM, PyDict.get?])
    (List.mergeSort_of_pairwise (by simp [c, flatPM])) 0 10 rfl (by simp [Curved])
  obtain ⟨sss, d, hd⟩ := h2 ⟨fun _ => none, ["er_rate"], 10, 2, 2⟩ (fun i => i == 0) rfl
  have hs : ∀ i, sss i = [[noisySample 10 (i == 0)]] := by
    intro i
    obtain ⟨k', hd⟩ := d i
    generalize sss i = l at hd
    cases hd with
    | cons d1 d2 =>
      cases d2
      rw [(noisyDraws (h1 f (by simp) exArgs (by simp [f])) d1).1]
      simp
  have hrate : ratesOf f.parts (replaceAlias f.setup.al (PyDict.set [("er_rate", (3 : ℝ))] "er_rate" 1)) = [1] := by
    simp [f, ratesOf, noisySetup, replaceAlias, Part.name, exArgs, PyDict.set, PyDict.get?]
  have hat : ∀ (k : Bool) x, atRates [noisySample 10 k] [1] x = (noisySample 10 k).expected x / 3 := by
    intro k x
    simp only [atRates, List.zipWith_cons_cons, List.zipWith_nil_right, List.sum_cons, List.sum_nil, add_zero, Sample.template,
      Sample.expected]
    change _ = 3 * _ / _ / 3
    ring
  have hA : ∀ i, expectedAll (PyDict.set [("er_rate", (3 : ℝ))] "er_rate" 1) [f] (sss i) = 1 := by
    intro i
    rw [hs i]
    simp only [expectedAll, List.zipWith_cons_cons, List.zipWith_nil_right, List.sum_cons, List.sum_nil, add_zero, hrate]
    rw [show binList f.bins = [(0, 0), (0, 1)] by simp only [f, hbins, exBins]]
    simp only [List.map_cons, List.map_nil, List.sum_cons, List.sum_nil, add_zero, hat, noisyExpected]
    split <;> norm_num
  have hM : meanOf (Ctx.evaluations 2) (fun i => expectedAll (PyDict.set [("er_rate", (3 : ℝ))] "er_rate" 1) [f] (sss i)) = 1 := by
    simp only [hA, meanOf_eq, Finset.sum_const, Finset.card_range]
    norm_num [Ctx.evaluations]
  have hN : observedAll [f] + 1 = 3 := by
    simp only [observedAll, observed, List.map_cons, List.map_nil, List.sum_cons, List.sum_nil, add_zero]
    rw [show binList f.bins = [(0, 0), (0, 1)] by simp only [f, hbins, exBins]]
    have c1 : countIn (.irreg1 [0, 1, 2]) [[some (1 / 2)], [some (3 / 2)]] (0, 1) = 1 := by
      simp [countIn, exIn, List.countP_cons]; norm_num
    simp only [f, hbins, hdata, List.map_cons, List.map_nil, List.sum_cons, List.sum_nil, noisyCount, c1]
    norm_num
  have := hd (by
    intro i _
    rw [hs i]
    constructor
    · intro ss hss s hs'
      simp only [List.mem_singleton] at hss
      subst hss
      simp only [List.mem_singleton] at hs'
      subst hs'
      exact (noisyExpected _ _).1
    · refine .cons ?_ .nil
      intro x hx
      have hx' : x ∈ binList (.irreg1 ([0, 1, 2] : List ℝ)) := by simpa only [f, hbins] using hx
      have e := noisyPos 10 (i == 0) x hx'
      rw [hrate, hat]
      simp only [expectedIn, List.map_cons, List.map_nil, List.sum_cons, List.sum_nil, add_zero] at e
      linarith) (by rw [hM]; norm_num)
  rw [hM, hN] at this
  exact ⟨c, this⟩

end Verif.Walk
