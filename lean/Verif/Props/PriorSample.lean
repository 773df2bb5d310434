/-
C126: sampling the prior draws from the prior the fit uses, independently for each parameter (parameter.py 62-132).
-/
import Verif.Props.PriorPlot
import Verif.Props.Parameter
import Mathlib.Probability.Independence.Basic

namespace Verif.Plot
open Verif Parameter MeasureTheory ProbabilityTheory

/-- The value of a parameter, if it is a number. -/
noncomputable def valueOf (pm : PM) (n : String) : ℝ :=
  match pm.vals.get? n with
  | some (.fin v) => v
  | _ => 0

/-- **C126 (own draw).** After `sample_prior` every fitted parameter of a known type is its own draw, cut to the allowed range. -/
theorem C126_own_draw (config : Config) (hc : config.keys.Nodup) (pm : PM) (hr : Reachable config pm) (sig : Solver) (draw : String → ℝ)
    (hok : (samplePrior sig draw pm).2 = .ok ()) (n : String) (s : Setting) (hs : config.get? n = some s) (hf : s.prior.isFixed = false)
    (ho : s.prior ≠ .other) : ∃ lo hi, s.allowed = some (lo, hi) ∧
      (samplePrior sig draw pm).1.vals.get? n = some (.fin (min (max (draw n) lo) hi)) := by
  have hi := hr.inv
  have hmem : n ∈ pm.vals.keys := by
    rw [hi.keys, PyDict.mem_keys_iff, hs]; rfl
  have hnd : pm.vals.keys.Nodup := by rw [hi.keys]; exact hc
  obtain ⟨s', old, v, h1, h2, h3, h4⟩ := sampleLoop_ok _ _ _ _ hnd hok n hmem
  rw [hi.cfg, hs] at h1
  cases h1
  have hget : (samplePrior sig draw pm).1.vals.get? n = some v := h4
  rw [hget]
  have hclip : clipRange s (draw n) = .ok v → ∃ lo hi, s.allowed = some (lo, hi) ∧ some v = some (.fin (min (max (draw n) lo) hi)) := by
    intro hw
    unfold clipRange at hw
    cases ha : s.allowed with
    | none => simp [ha] at hw
    | some r =>
      obtain ⟨lo, hi'⟩ := r
      simp only [ha] at hw
      cases hw
      exact ⟨lo, hi', rfl, rfl⟩
  have hdn : ∀ std : ℝ, (do let v ← drawNormal std (draw n); clipRange s v) = (.ok v : Res XF) → clipRange s (draw n) = .ok v := by
    intro std hw
    unfold drawNormal at hw
    split at hw
    · cases hw
    · exact hw
  cases hp : s.prior with
  | norm m std =>
    simp only [samplePriorOne, hp] at h3
    exact hclip (hdn _ h3)
  | twohalfnorm mu sp sn =>
    simp only [samplePriorOne, hp] at h3
    split at h3
    · cases h3
    · split at h3
      · exact hclip h3
      · cases h3
  | uniform a b =>
    simp only [samplePriorOne, hp] at h3
    exact hclip h3
  | free =>
    simp only [samplePriorOne, hp] at h3
    unfold drawInit at h3
    split at h3
    · cases h3
    · exact hclip (hdn _ h3)
  | fixed w => simp [hp, Prior.isFixed] at hf
  | other => exact absurd hp ho

/-- **C126 (own start).** The same for `sample_init`, for every fitted parameter. -/
theorem C126_own_start (config : Config) (hc : config.keys.Nodup) (pm : PM) (hr : Reachable config pm) (draw : String → ℝ)
    (hok : (sampleInit draw pm).2 = .ok ()) (n : String) (s : Setting) (hs : config.get? n = some s) (hf : s.prior.isFixed = false) :
    ∃ lo hi, s.allowed = some (lo, hi) ∧ (sampleInit draw pm).1.vals.get? n = some (.fin (min (max (draw n) lo) hi)) := by
  have hi := hr.inv
  have hmem : n ∈ pm.vals.keys := by
    rw [hi.keys, PyDict.mem_keys_iff, hs]; rfl
  have hnd : pm.vals.keys.Nodup := by rw [hi.keys]; exact hc
  obtain ⟨s', old, v, h1, h2, h3, h4⟩ := sampleLoop_ok _ _ _ _ hnd hok n hmem
  rw [hi.cfg, hs] at h1
  cases h1
  have hget : (sampleInit draw pm).1.vals.get? n = some v := h4
  rw [hget]
  have h5 : clipRange s (draw n) = .ok v := by
    cases hp : s.prior with
    | fixed w => simp [hp, Prior.isFixed] at hf
    | _ =>
      simp only [sampleInitOne, hp, drawInit, drawNormal] at h3
      split at h3
      · cases h3
      · split at h3
        · cases h3
        · exact h3
  unfold clipRange at h5
  cases ha : s.allowed with
  | none => simp [ha] at h5
  | some r =>
    obtain ⟨lo, hi'⟩ := r
    simp only [ha] at h5
    cases h5
    exact ⟨lo, hi', rfl, rfl⟩

/-- The law numpy's generators are called with (parameter.py 80-107): a normal, a two-half-normal or a uniform distribution. -/
noncomputable def drawLaw (sig : Solver) : Prior → Measure ℝ
  | .norm m std => gaussianReal m (Randgen.sq std)
  | .uniform lower upper => (ENNReal.ofReal (upper - lower))⁻¹ • volume.restrict (Set.Icc lower upper)
  | .twohalfnorm mu ep en =>
    match sig (ep, en) with
    | some (a, b) => volume.withDensity (fun x => ENNReal.ofReal (Real.exp (Randgen.ell mu a b x)))
    | none => 0
  | _ => 0

variable {Ω : Type} [MeasurableSpace Ω]

theorem other_value (config : Config) (hc : config.keys.Nodup) (pm : PM) (hr : Reachable config pm) (sig : Solver) (draw : String → ℝ)
    (hok : (samplePrior sig draw pm).2 = .ok ()) (n : String) :
    (∃ lo hi, ∀ draw', (samplePrior sig draw' pm).2 = .ok () → valueOf (samplePrior sig draw' pm).1 n = min (max (draw' n) lo) hi) ∨
    (∃ v, ∀ draw', (samplePrior sig draw' pm).2 = .ok () → valueOf (samplePrior sig draw' pm).1 n = v) := by
  cases hs : config.get? n with
  | none =>
    right
    refine ⟨0, fun draw' h => ?_⟩
    have hk : (samplePrior sig draw' pm).1.vals.keys = config.keys := (samplePrior_inv sig draw' hr.inv).keys
    have : (samplePrior sig draw' pm).1.vals.get? n = none := by
      cases hg : (samplePrior sig draw' pm).1.vals.get? n with
      | none => rfl
      | some v =>
        have : n ∈ config.keys := by
          rw [← hk, PyDict.mem_keys_iff, hg]; rfl
        rw [PyDict.mem_keys_iff, hs] at this
        cases this
    unfold valueOf
    rw [this]
  | some s =>
    by_cases hf : s.prior.isFixed = false
    · by_cases ho : s.prior = .other
      · right
        refine ⟨valueOf pm n, fun draw' h => ?_⟩
        have := (C02_sample_prior_in_range config hc pm hr sig draw' h n s hs).2.2 ho
        unfold valueOf
        rw [this]
      · left
        obtain ⟨lo, hi, ha, _⟩ := C126_own_draw config hc pm hr sig draw hok n s hs hf ho
        refine ⟨lo, hi, fun draw' h => ?_⟩
        obtain ⟨lo', hi', ha', hv⟩ := C126_own_draw config hc pm hr sig draw' h n s hs hf ho
        rw [ha] at ha'
        cases ha'
        unfold valueOf
        rw [hv]
    · right
      cases hp : s.prior with
      | fixed w =>
        refine ⟨w, fun draw' h => ?_⟩
        have := (C02_sample_prior_in_range config hc pm hr sig draw' h n s hs).1 w hp
        unfold valueOf
        rw [this]
      | _ => simp [hp, Prior.isFixed] at hf

/-- **C126 (independent).** If the draws are independent, so are the values `sample_prior` leaves for the parameters, whatever happened
before. -/
theorem C126_independent (config : Config) (hc : config.keys.Nodup) (pm : PM) (hr : Reachable config pm) (sig : Solver) (P : Measure Ω)
    [IsProbabilityMeasure P] (d : Ω → String → ℝ) (hd : iIndepFun (fun n ω => d ω n) P)
    (hok : ∀ ω, (samplePrior sig (d ω) pm).2 = .ok ()) :
    iIndepFun (fun n ω => valueOf (samplePrior sig (d ω) pm).1 n) P := by
  have : Nonempty Ω := by
    by_contra h
    rw [not_nonempty_iff] at h
    have := measure_univ (μ := P)
    rw [Set.univ_eq_empty_iff.2 h, measure_empty] at this
    exact zero_ne_one this
  obtain ⟨ω₀⟩ := this
  have hg : ∀ n, ∃ g : ℝ → ℝ, Measurable g ∧ ∀ ω, valueOf (samplePrior sig (d ω) pm).1 n = g (d ω n) := by
    intro n
    rcases other_value config hc pm hr sig (d ω₀) (hok ω₀) n with ⟨lo, hi, h⟩ | ⟨v, h⟩
    · exact ⟨fun x => min (max x lo) hi, by fun_prop, fun ω => h _ (hok ω)⟩
    · exact ⟨fun _ => v, measurable_const, fun ω => h _ (hok ω)⟩
  choose g gm hg using hg
  have := hd.comp g gm
  have e : (fun n ω => valueOf (samplePrior sig (d ω) pm).1 n) = fun n => g n ∘ (fun ω => d ω n) := by
    funext n ω
    exact hg n ω
  rw [e]
  exact this

/-- The law of the value of one parameter. -/
theorem value_law (config : Config) (hc : config.keys.Nodup) (pm : PM) (hr : Reachable config pm) (sig : Solver) (P : Measure Ω)
    (d : Ω → String → ℝ) (hok : ∀ ω, (samplePrior sig (d ω) pm).2 = .ok ()) (n : String) (s : Setting) (hs : config.get? n = some s)
    (hp : Proper sig s.prior) (lo hi : ℝ) (ha : s.allowed = some (lo, hi)) (hm : Measurable (fun ω => d ω n)) (A : Set ℝ)
    (hA : MeasurableSet A) :
    P {ω | valueOf (samplePrior sig (d ω) pm).1 n ∈ A} = P.map (fun ω => d ω n) {v | min (max v lo) hi ∈ A} := by
  have hf : s.prior.isFixed = false := by
    cases h : s.prior <;> simp [Prior.isFixed]
    rw [h] at hp
    exact hp
  have ho : s.prior ≠ .other := by
    intro h
    rw [h] at hp
    exact hp
  have hB : MeasurableSet {v : ℝ | min (max v lo) hi ∈ A} := (by fun_prop : Measurable fun v : ℝ => min (max v lo) hi) hA
  rw [Measure.map_apply hm hB]
  congr 1
  ext ω
  obtain ⟨lo', hi', ha', hv⟩ := C126_own_draw config hc pm hr sig (d ω) (hok ω) n s hs hf ho
  rw [ha] at ha'
  cases ha'
  simp only [Set.mem_ofPred_eq, Set.mem_preimage, valueOf, hv]

/-- The curve of the prior is the density of the draws. -/
theorem drawLaw_density (sig : Solver) (config : Config) (n : String) (s : Setting) (hs : config.get? n = some s) (hp : Proper sig s.prior)
    (hu : ∀ lower upper, s.prior ≠ .uniform lower upper) : ∃ f : ℝ → ℝ, marginalCurve sig config n = .ok (some (some ∘ f)) ∧ Continuous f ∧
      (∀ x, 0 < f x) ∧ ∫ x, f x = 1 ∧ drawLaw sig s.prior = volume.withDensity (fun x => ENNReal.ofReal (f x)) := by
  obtain ⟨f, h1, _, h3, h4, _, h6, _⟩ := curve_spec sig config n s hs hp
  refine ⟨f, h1, h3, h4, h6 hu, ?_⟩
  cases hpr : s.prior with
  | norm m std =>
    rw [hpr] at hp
    have hstd : 0 < std := hp
    have : marginalCurve sig config n = .ok (some (some ∘ normVal m std)) := by
      simp only [marginalCurve, PyDict.getItem, hs, hpr, normPdf_ok m hstd.ne', Bind.bind, Except.bind, Pure.pure, Except.pure]
    rw [some_comp_inj (h1.symm.trans this), normVal_eq_pdf m hstd]
    simp only [drawLaw]
    rw [gaussianReal_of_var_ne_zero m (Randgen.sq_ne_zero' hstd.ne')]
    rfl
  | uniform lower upper => exact absurd hpr (hu _ _)
  | twohalfnorm mu ep en =>
    rw [hpr] at hp
    obtain ⟨a, b, h, ha, hb⟩ := hp
    have : marginalCurve sig config n = .ok (some (some ∘ fun x => Real.exp (Randgen.ell mu a b x))) := by
      simp only [marginalCurve, PyDict.getItem, hs, hpr, thnPdf_ok h ha hb, Bind.bind, Except.bind, Except.map]
    rw [some_comp_inj (h1.symm.trans this)]
    simp only [drawLaw, h]
  | free => rw [hpr] at hp; exact hp.elim
  | fixed v => rw [hpr] at hp; exact hp.elim
  | other => rw [hpr] at hp; exact hp.elim

/-- **C126 (inside, part).** Inside the allowed range the values are distributed like the prior the fit uses: the probability of any set of
values there is its prior probability times the probability that the draw is allowed.  Missing: the rest of the probability, see
`C126_border`. -/
theorem C126_inside_partial (config : Config) (hc : config.keys.Nodup) (pm : PM) (hr : Reachable config pm) (sig : Solver) (P : Measure Ω)
    (d : Ω → String → ℝ) (hok : ∀ ω, (samplePrior sig (d ω) pm).2 = .ok ()) (n : String) (s : Setting) (hs : config.get? n = some s)
    (hp : Proper sig s.prior) (hu : ∀ lower upper, s.prior ≠ .uniform lower upper) (lo hi : ℝ) (ha : s.allowed = some (lo, hi))
    (hm : Measurable (fun ω => d ω n)) (hl : P.map (fun ω => d ω n) = drawLaw sig s.prior) (p : ℝ → ℝ) (hd : PriorDensity sig s p)
    (A : Set ℝ) (hA : MeasurableSet A) (hin : A ⊆ Set.Ioo lo hi) :
    P {ω | valueOf (samplePrior sig (d ω) pm).1 n ∈ A} =
      P {ω | lo ≤ d ω n ∧ d ω n ≤ hi} * volume.withDensity (fun x => ENNReal.ofReal (p x)) A := by
  obtain ⟨f, h1, h2, h3, h4, h5⟩ := drawLaw_density sig config n s hs hp hu
  have eset : {v : ℝ | min (max v lo) hi ∈ A} = A := by
    ext v
    simp only [Set.mem_ofPred_eq]
    constructor
    · intro h
      obtain ⟨a, b⟩ := hin h
      have hv : min (max v lo) hi = v := by
        rcases le_total v lo with h1 | h1
        · rw [max_eq_right h1] at a
          exact absurd (lt_of_lt_of_le a (min_le_left _ _)) (lt_irrefl _)
        · rw [max_eq_left h1] at b ⊢
          rcases le_total v hi with h2 | h2
          · exact min_eq_left h2
          · rw [min_eq_right h2] at b
            exact absurd b (lt_irrefl _)
      rwa [hv] at h
    · intro h
      obtain ⟨a, b⟩ := hin h
      rwa [max_eq_left a.le, min_eq_left b.le]
  rw [value_law config hc pm hr sig P d hok n s hs hp lo hi ha hm A hA, hl, eset]
  have e2 : P {ω | lo ≤ d ω n ∧ d ω n ≤ hi} = drawLaw sig s.prior (Set.Icc lo hi) := by
    rw [← hl, Measure.map_apply hm measurableSet_Icc]
    rfl
  have fm : Measurable (fun x => ENNReal.ofReal (f x)) := h2.measurable.ennreal_ofReal
  have hM : 0 ≤ ∫ t in Set.Icc lo hi, f t := integral_nonneg (fun x => (h3 x).le)
  have hI : Integrable f := by
    by_contra h
    rw [integral_undef h] at h4
    exact zero_ne_one h4
  have eM : ∫⁻ x in Set.Icc lo hi, ENNReal.ofReal (f x) = ENNReal.ofReal (∫ t in Set.Icc lo hi, f t) :=
    (ofReal_integral_eq_lintegral_ofReal hI.integrableOn (Filter.Eventually.of_forall fun x => (h3 x).le)).symm
  rw [e2, h5, withDensity_apply _ measurableSet_Icc, withDensity_apply _ hA, withDensity_apply _ hA, eM,
    ← lintegral_const_mul' _ _ ENNReal.ofReal_ne_top]
  refine setLIntegral_congr_fun hA (fun x hx => ?_)
  rw [← ENNReal.ofReal_mul hM]
  congr 1
  exact C88_shape_partial sig config n s hs hp lo hi ha f h1 p hd x ⟨(hin hx).1.le, (hin hx).2.le⟩

/-- **C126 (violated: borders).** With a normal or two-half-normal prior the values at the two ends of the allowed range come up with positive
probability, that of all draws beyond, though the prior gives single values no probability. -/
theorem C126_border (config : Config) (hc : config.keys.Nodup) (pm : PM) (hr : Reachable config pm) (sig : Solver) (P : Measure Ω)
    (d : Ω → String → ℝ) (hok : ∀ ω, (samplePrior sig (d ω) pm).2 = .ok ()) (n : String) (s : Setting) (hs : config.get? n = some s)
    (hp : Proper sig s.prior) (hu : ∀ lower upper, s.prior ≠ .uniform lower upper) (lo hi : ℝ) (hlh : lo < hi) (ha : s.allowed = some (lo, hi))
    (hm : Measurable (fun ω => d ω n)) (hl : P.map (fun ω => d ω n) = drawLaw sig s.prior) (p : ℝ → ℝ) :
    (P {ω | valueOf (samplePrior sig (d ω) pm).1 n = lo} = drawLaw sig s.prior (Set.Iic lo) ∧ 0 < drawLaw sig s.prior (Set.Iic lo)) ∧
    (P {ω | valueOf (samplePrior sig (d ω) pm).1 n = hi} = drawLaw sig s.prior (Set.Ici hi) ∧ 0 < drawLaw sig s.prior (Set.Ici hi)) ∧
    ∀ x, volume.withDensity (fun x => ENNReal.ofReal (p x)) {x} = 0 := by
  obtain ⟨f, h1, h2, h3, h4, h5⟩ := drawLaw_density sig config n s hs hp hu
  have fm : Measurable (fun x => ENNReal.ofReal (f x)) := h2.measurable.ennreal_ofReal
  have pos : ∀ A : Set ℝ, MeasurableSet A → volume A ≠ 0 → 0 < drawLaw sig s.prior A := by
    intro A hA hv
    rw [h5, pos_iff_ne_zero, ne_eq, withDensity_apply_eq_zero fm]
    have : {x | ENNReal.ofReal (f x) ≠ 0} ∩ A = A := by
      refine Set.inter_eq_right.2 (fun x _ => ?_)
      simp [h3 x]
    rw [this]
    exact hv
  refine ⟨⟨?_, pos _ measurableSet_Iic (by simp)⟩, ⟨?_, pos _ measurableSet_Ici (by simp)⟩, fun x => ?_⟩
  · have := value_law config hc pm hr sig P d hok n s hs hp lo hi ha hm {lo} (measurableSet_singleton lo)
    simp only [Set.mem_singleton_iff] at this
    rw [this, hl]
    congr 1
    ext v
    simp only [Set.mem_ofPred_eq, Set.mem_Iic]
    constructor
    · intro h
      by_contra hv
      rw [not_le] at hv
      rw [max_eq_left hv.le] at h
      have := lt_min hv hlh
      rw [h] at this
      exact lt_irrefl _ this
    · intro h
      rw [max_eq_right h, min_eq_left hlh.le]
  · have := value_law config hc pm hr sig P d hok n s hs hp lo hi ha hm {hi} (measurableSet_singleton hi)
    simp only [Set.mem_singleton_iff] at this
    rw [this, hl]
    congr 1
    ext v
    simp only [Set.mem_ofPred_eq, Set.mem_Ici]
    constructor
    · intro h
      have : hi ≤ max v lo := by rw [← h]; exact min_le_left _ _
      rcases le_max_iff.1 this with h' | h'
      · exact h'
      · exact absurd hlh (not_lt.2 h')
    · intro h
      exact min_eq_right (h.trans (le_max_left _ _))
  · exact withDensity_absolutelyContinuous _ _ (by simp)

/-- **C126 (uniform priors).** With a uniform prior the values follow the prior of the fit exactly if the interval of the prior is the allowed
range: else the ends come up too often or parts of the range never. -/
theorem C126_uniform (config : Config) (hc : config.keys.Nodup) (pm : PM) (hr : Reachable config pm) (sig : Solver) (P : Measure Ω)
    (d : Ω → String → ℝ) (hok : ∀ ω, (samplePrior sig (d ω) pm).2 = .ok ()) (n : String) (s : Setting) (hs : config.get? n = some s)
    (lower upper : ℝ) (hpr : s.prior = .uniform lower upper) (hlu : lower < upper) (lo hi : ℝ) (hlh : lo < hi) (ha : s.allowed = some (lo, hi))
    (hm : Measurable (fun ω => d ω n)) (hl : P.map (fun ω => d ω n) = drawLaw sig s.prior) (p : ℝ → ℝ) (hd : PriorDensity sig s p) :
    (∀ A, MeasurableSet A → P {ω | valueOf (samplePrior sig (d ω) pm).1 n ∈ A} = volume.withDensity (fun x => ENNReal.ofReal (p x)) A) ↔
      lower = lo ∧ upper = hi := by
  have hp : Proper sig s.prior := by rw [hpr]; exact hlu
  obtain ⟨f, h1, _, _, _, _, _, _⟩ := curve_spec sig config n s hs hp
  have hpx : p = (Set.Icc lo hi).indicator (fun _ => 1 / (hi - lo)) := by
    obtain ⟨c, hc', hpe⟩ := density_eq hd ha (hp.evalOK ha)
    funext x
    by_cases hx : x ∈ Set.Icc lo hi
    · rw [Set.indicator_of_mem hx]
      exact (C88_uniform sig config n s hs lower upper hpr hlu lo hi hlh ha f h1 p hd x hx).1
    · rw [hpe, Set.indicator_of_notMem hx, Set.indicator_of_notMem hx]
  have hr0 : 0 < hi - lo := sub_pos.2 hlh
  have hdens : ∀ A, MeasurableSet A → volume.withDensity (fun x => ENNReal.ofReal (p x)) A = (ENNReal.ofReal (hi - lo))⁻¹ * volume (A ∩ Set.Icc lo hi) := by
    intro A hA
    have e : (fun x => ENNReal.ofReal (p x)) = (Set.Icc lo hi).indicator (fun _ => (ENNReal.ofReal (hi - lo))⁻¹) := by
      funext x
      rw [hpx]
      by_cases hx : x ∈ Set.Icc lo hi
      · rw [Set.indicator_of_mem hx, Set.indicator_of_mem hx, one_div, ENNReal.ofReal_inv_of_pos hr0]
      · rw [Set.indicator_of_notMem hx, Set.indicator_of_notMem hx, ENNReal.ofReal_zero]
    rw [e, withDensity_indicator measurableSet_Icc, withDensity_const, Measure.smul_apply, smul_eq_mul, Measure.restrict_apply hA]
  have hval : ∀ A, MeasurableSet A → P {ω | valueOf (samplePrior sig (d ω) pm).1 n ∈ A} =
      (ENNReal.ofReal (upper - lower))⁻¹ * volume ({v : ℝ | min (max v lo) hi ∈ A} ∩ Set.Icc lower upper) := by
    intro A hA
    have hB : MeasurableSet {v : ℝ | min (max v lo) hi ∈ A} := (by fun_prop : Measurable fun v : ℝ => min (max v lo) hi) hA
    rw [value_law config hc pm hr sig P d hok n s hs hp lo hi ha hm A hA, hl, hpr]
    simp only [drawLaw]
    rw [Measure.smul_apply, smul_eq_mul, Measure.restrict_apply hB]
  constructor
  · intro h
    have hfin : (ENNReal.ofReal (upper - lower))⁻¹ ≠ 0 := by simp
    have hfin' : (ENNReal.ofReal (hi - lo))⁻¹ ≠ 0 := by simp
    -- no atoms
    have atom : ∀ x, volume ({v : ℝ | min (max v lo) hi ∈ ({x} : Set ℝ)} ∩ Set.Icc lower upper) = 0 := by
      intro x
      have e := h {x} (measurableSet_singleton x)
      rw [hval _ (measurableSet_singleton x), hdens _ (measurableSet_singleton x)] at e
      have : volume ({x} ∩ Set.Icc lo hi) = 0 := measure_mono_null Set.inter_subset_left (by simp)
      rw [this, mul_zero] at e
      exact (mul_eq_zero.1 e).resolve_left hfin
    -- nothing missing
    have miss : ∀ a b, a < b → lo ≤ a → b ≤ hi → Set.Ioo a b ∩ Set.Icc lower upper ≠ ∅ := by
      intro a b hab h1 h2 hemp
      have e := h (Set.Ioo a b) measurableSet_Ioo
      rw [hval _ measurableSet_Ioo, hdens _ measurableSet_Ioo] at e
      have e1 : {v : ℝ | min (max v lo) hi ∈ Set.Ioo a b} ∩ Set.Icc lower upper = ∅ := by
        rw [Set.eq_empty_iff_forall_notMem] at hemp ⊢
        rintro v ⟨hv, hv'⟩
        refine hemp v ⟨?_, hv'⟩
        obtain ⟨q1, q2⟩ : a < min (max v lo) hi ∧ min (max v lo) hi < b := hv
        have q3 : a < max v lo := lt_of_lt_of_le q1 (min_le_left _ _)
        have q4 : lo < v := by
          rcases lt_max_iff.1 q3 with q | q
          · linarith
          · linarith
        rw [max_eq_left q4.le] at q1 q2 q3
        refine ⟨q3, ?_⟩
        rcases min_lt_iff.1 q2 with q | q
        · exact q
        · linarith
      rw [e1, measure_empty, mul_zero] at e
      have e2 : Set.Ioo a b ∩ Set.Icc lo hi = Set.Ioo a b :=
        Set.inter_eq_left.2 (fun x hx => ⟨h1.trans hx.1.le, hx.2.le.trans h2⟩)
      rw [e2, Real.volume_Ioo] at e
      rcases mul_eq_zero.1 e.symm with q | q
      · exact hfin' q
      · rw [ENNReal.ofReal_eq_zero] at q
        linarith
    constructor
    · rcases lt_trichotomy lower lo with q | q | q
      · exfalso
        have := atom lo
        have sub : Set.Icc lower (min lo upper) ⊆ {v : ℝ | min (max v lo) hi ∈ ({lo} : Set ℝ)} ∩ Set.Icc lower upper := by
          rintro v ⟨v1, v2⟩
          refine ⟨?_, v1, v2.trans (min_le_right _ _)⟩
          change min (max v lo) hi = lo
          rw [max_eq_right (v2.trans (min_le_left _ _)), min_eq_left hlh.le]
        have := measure_mono_null sub this
        rw [Real.volume_Icc, ENNReal.ofReal_eq_zero] at this
        have := lt_min q hlu
        linarith
      · exact q
      · exfalso
        refine miss lo (min lower hi) (lt_min q hlh) le_rfl (min_le_right _ _) ?_
        rw [Set.eq_empty_iff_forall_notMem]
        rintro v ⟨⟨_, v2⟩, v3, _⟩
        have := lt_of_lt_of_le v2 (min_le_left _ _)
        linarith
    · rcases lt_trichotomy upper hi with q | q | q
      · exfalso
        refine miss (max upper lo) hi (max_lt q hlh) (le_max_right _ _) le_rfl ?_
        rw [Set.eq_empty_iff_forall_notMem]
        rintro v ⟨⟨v1, _⟩, _, v3⟩
        have := lt_of_le_of_lt (le_max_left _ _) v1
        linarith
      · exact q
      · exfalso
        have := atom hi
        have sub : Set.Icc (max hi lower) upper ⊆ {v : ℝ | min (max v lo) hi ∈ ({hi} : Set ℝ)} ∩ Set.Icc lower upper := by
          rintro v ⟨v1, v2⟩
          refine ⟨?_, (le_max_right _ _).trans v1, v2⟩
          change min (max v lo) hi = hi
          exact min_eq_right (((le_max_left _ _).trans v1).trans (le_max_left _ _))
        have := measure_mono_null sub this
        rw [Real.volume_Icc, ENNReal.ofReal_eq_zero] at this
        have := max_lt q hlu
        linarith
  · rintro ⟨rfl, rfl⟩ A hA
    rw [hval A hA, hdens A hA]
    congr 2
    ext v
    simp only [Set.mem_inter_iff, Set.mem_ofPred_eq, Set.mem_Icc]
    constructor
    · rintro ⟨a, b, c⟩
      rw [max_eq_left b, min_eq_left c] at a
      exact ⟨a, b, c⟩
    · rintro ⟨a, b, c⟩
      refine ⟨?_, b, c⟩
      rwa [max_eq_left b, min_eq_left c]

/-- Non-vacuity: a normal prior allowed within one standard deviation of its mean, drawn by the standard normal law. -/
example (sig : Solver) : ∃ (config : Config) (pm : PM) (s : Setting), config.keys.Nodup ∧ Reachable config pm ∧ config.get? "g1" = some s ∧
    Proper sig s.prior ∧ s.allowed = some (-1, 1) ∧ (∀ ω : ℝ, (samplePrior sig (fun _ => ω) pm).2 = .ok ()) ∧
    (gaussianReal 0 1).map (fun ω : ℝ => ω) = drawLaw sig s.prior ∧
    0 < gaussianReal 0 1 {ω | valueOf (samplePrior sig (fun _ => ω) pm).1 "g1" = 1} := by
  let s : Setting := ⟨.norm 0 1, some (-1, 1), none⟩
  let c : Config := [("g1", s)]
  have hn : c.keys.Nodup := by simp [c, PyDict.keys]
  have hr : Reachable c (mk sig (fun _ => 0) c).1 := ⟨sig, fun _ => 0, [], rfl⟩
  have hp : Proper sig s.prior := by change (0 : ℝ) < 1; norm_num
  have hok : ∀ ω : ℝ, (samplePrior sig (fun _ => ω) (mk sig (fun _ => 0) c).1).2 = .ok () := by
    intro ω
    have h10 : ¬ ((1 : ℝ) < 0) := by norm_num
    simp [h10, c, s, mk, mkRaw, samplePrior, sampleLoop, samplePriorOne, drawNormal, clipRange, PyDict.keys, PyDict.get?, PyDict.set, bind, Except.bind]
  have hl : (gaussianReal 0 1).map (fun ω : ℝ => ω) = drawLaw sig s.prior := by
    change _ = gaussianReal 0 (Randgen.sq 1)
    have : Randgen.sq 1 = 1 := by ext; simp [Randgen.coe_sq]
    rw [this]
    exact Measure.map_id
  refine ⟨c, _, s, hn, hr, rfl, hp, rfl, hok, hl, ?_⟩
  have := (C126_border c hn _ hr sig (gaussianReal 0 1) (fun ω _ => ω) hok "g1" s rfl hp (fun _ _ h => by cases h) (-1) 1 (by norm_num) rfl
    measurable_id hl (fun _ => 0)).2.1
  rw [this.1]
  exact this.2

end Verif.Plot
