/-
C88: the prior drawn over the posterior is the prior of the fit.
-/
import Verif.Lemmas.PriorPlot

namespace Verif.Plot
open Verif Parameter MeasureTheory ProbabilityTheory

/-- A prior with a curve: positive widths. -/
def Proper (sig : Solver) : Prior → Prop
  | .norm _ std => 0 < std
  | .uniform lower upper => lower < upper
  | .twohalfnorm _ ep en => ∃ a b, sig (ep, en) = some (a, b) ∧ 0 < a ∧ 0 < b
  | _ => False

/-- The probability density of the prior the fit uses for one parameter: proportional to the exponential of its log prior, zero
where that is minus infinity. -/
structure PriorDensity (sig : Solver) (s : Setting) (p : ℝ → ℝ) : Prop where
  value : ∃ c > 0, ∀ x, (∀ l, logPriorTerm sig s (.fin x) = .ok (.fin l) → p x = c * Real.exp l) ∧
    (logPriorTerm sig s (.fin x) = .ok .ninf → p x = 0)
  one : ∫ x, p x = 1

theorem Proper.evalOK {sig : Solver} {s : Setting} (h : Proper sig s.prior) {r : ℝ × ℝ} (ha : s.allowed = some r) : EvalOK sig s := by
  refine ⟨⟨r, ha⟩, fun m std hp => ?_, fun mu sp sn hp => ?_⟩
  · rw [hp] at h; exact h.ne'
  · rw [hp] at h; exact h

/-- The curve as a function, and its relation to the log prior. -/
theorem curve_spec (sig : Solver) (config : Config) (name : String) (s : Setting) (hs : config.get? name = some s)
    (hp : Proper sig s.prior) : ∃ f : ℝ → ℝ, marginalCurve sig config name = .ok (some (some ∘ f)) ∧
      cornerCurve sig config name = .ok (some (some ∘ f)) ∧ Continuous f ∧ (∀ x, 0 < f x) ∧
      (∃ c > 0, ∀ x, f x = c * Real.exp (priorLogDensity sig s.prior x)) ∧
      ((∀ lower upper, s.prior ≠ .uniform lower upper) → ∫ x, f x = 1) ∧
      ∀ lower upper, s.prior = .uniform lower upper → ∀ x, f x = 1 / (upper - lower) := by
  have hpi : 0 < Real.sqrt (2 * Real.pi) := Real.sqrt_pos.2 (by positivity)
  cases hpr : s.prior with
  | norm m std =>
    rw [hpr] at hp
    have hstd : 0 < std := hp
    refine ⟨normVal m std, ?_, ?_, ?_, ?_, ⟨1 / Real.sqrt (2 * Real.pi) / std, by positivity, ?_⟩, ?_, ?_⟩
    · simp only [marginalCurve, PyDict.getItem, hs, hpr, normPdf_ok m hstd.ne', Bind.bind, Except.bind, Pure.pure, Except.pure]
    · simp only [cornerCurve, hs, hpr, normPdf_ok m hstd.ne']
    · unfold normVal; fun_prop
    · intro x; unfold normVal; positivity
    · intro x
      unfold normVal priorLogDensity
      have : -(x - m) ^ 2 / std ^ 2 / 2 = -(x - m) ^ 2 / (2 * std ^ 2) := by field_simp
      rw [this]
      ring
    · intro _
      rw [normVal_eq_pdf m hstd]
      exact integral_gaussianPDFReal_eq_one m (Randgen.sq_ne_zero' hstd.ne')
    · intro l u h; cases h
  | uniform lower upper =>
    rw [hpr] at hp
    have hlu : 0 < upper - lower := sub_pos.2 hp
    refine ⟨fun _ => 1 / (upper - lower), ?_, ?_, continuous_const, fun _ => by positivity,
      ⟨1 / (upper - lower), by positivity, fun x => ?_⟩, fun h => absurd rfl (h lower upper), ?_⟩
    · simp only [marginalCurve, PyDict.getItem, hs, hpr, uniformPdf, hlu.ne', if_false, Bind.bind, Except.bind, Except.map]
      rfl
    · simp only [cornerCurve, hs, hpr, uniformPdf, hlu.ne', if_false, Except.map]
      rfl
    · simp [priorLogDensity]
    · intro l u h x
      cases h
      rfl
  | twohalfnorm mu ep en =>
    rw [hpr] at hp
    obtain ⟨a, b, h, ha, hb⟩ := hp
    refine ⟨fun x => Real.exp (Randgen.ell mu a b x), ?_, ?_, Real.continuous_exp.comp (Randgen.ell_continuous mu a b),
      fun x => Real.exp_pos _, ⟨1, one_pos, fun x => ?_⟩, fun _ => thn_integral mu ha hb, ?_⟩
    · simp only [marginalCurve, PyDict.getItem, hs, hpr, thnPdf_ok h ha hb, Bind.bind, Except.bind, Except.map]
    · simp only [cornerCurve, hs, hpr, thnPdf_ok h ha hb, Except.map]
    · simp only [priorLogDensity, h, one_mul, Randgen.ell]
      congr 1
      by_cases hx : x < mu
      · simp only [hx, if_true]
        field_simp
        ring
      · simp only [hx, if_false]
        field_simp
        ring
    · intro l u h; cases h
  | free => rw [hpr] at hp; exact hp.elim
  | fixed v => rw [hpr] at hp; exact hp.elim
  | other => rw [hpr] at hp; exact hp.elim

theorem some_comp_inj {f g : ℝ → ℝ} (h : (Except.ok (some (some ∘ f)) : Res (Option Curve)) = .ok (some (some ∘ g))) : f = g := by
  have := Option.some.inj (Except.ok.inj h)
  funext x
  exact Option.some.inj (congrFun this x)

theorem density_eq {sig : Solver} {s : Setting} {p : ℝ → ℝ} (hd : PriorDensity sig s p) {lo hi : ℝ} (ha : s.allowed = some (lo, hi))
    (hok : EvalOK sig s) : ∃ c > 0, p = (Set.Icc lo hi).indicator (fun x => c * Real.exp (priorLogDensity sig s.prior x)) := by
  obtain ⟨c, hc, hv⟩ := hd.value
  refine ⟨c, hc, ?_⟩
  funext x
  by_cases hx : x ∈ Set.Icc lo hi
  · rw [Set.indicator_of_mem hx]
    exact (hv x).1 _ (logPriorTerm_inside sig s x lo hi ha hok hx.1 hx.2)
  · rw [Set.indicator_of_notMem hx]
    refine (hv x).2 (logPriorTerm_outside sig s (.fin x) lo hi ha (.inr (.inr ⟨x, rfl, ?_⟩)))
    by_contra hcon
    push Not at hcon
    exact hx hcon

/-- **C88 (drawn).** A prior with positive widths is drawn as the same positive curve in the marginal and the corner plot. -/
theorem C88_drawn (sig : Solver) (config : Config) (name : String) (s : Setting) (hs : config.get? name = some s)
    (hp : Proper sig s.prior) : ∃ f : ℝ → ℝ, marginalCurve sig config name = .ok (some (some ∘ f)) ∧
      cornerCurve sig config name = .ok (some (some ∘ f)) ∧ ∀ x, 0 < f x := by
  obtain ⟨f, h1, h2, _, h4, _⟩ := curve_spec sig config name s hs hp
  exact ⟨f, h1, h2, h4⟩

/-- **C88 (shape, part).** Within the allowed range the drawn curve is the density of the prior times the mass the curve has
there.  Missing: the factor is not 1 in general, and the curve goes on outside the range; see the negations. -/
theorem C88_shape_partial (sig : Solver) (config : Config) (name : String) (s : Setting) (hs : config.get? name = some s)
    (hp : Proper sig s.prior) (lo hi : ℝ) (ha : s.allowed = some (lo, hi)) (f : ℝ → ℝ)
    (hf : marginalCurve sig config name = .ok (some (some ∘ f))) (p : ℝ → ℝ) (hd : PriorDensity sig s p) (x : ℝ)
    (hx : x ∈ Set.Icc lo hi) : f x = (∫ t in Set.Icc lo hi, f t) * p x := by
  obtain ⟨g, h1, _, h3, h4, ⟨c, hc, hg⟩, _⟩ := curve_spec sig config name s hs hp
  have hfg : f = g := some_comp_inj (hf.symm.trans h1)
  subst hfg
  obtain ⟨c', hc', rfl⟩ := density_eq hd ha (hp.evalOK ha)
  have hone := hd.one
  rw [integral_indicator measurableSet_Icc, integral_const_mul] at hone
  rw [Set.indicator_of_mem hx]
  simp only [hg, integral_const_mul]
  calc c * Real.exp (priorLogDensity sig s.prior x)
      = c * Real.exp (priorLogDensity sig s.prior x) * (c' * ∫ t in Set.Icc lo hi, Real.exp (priorLogDensity sig s.prior t)) := by
        rw [hone, mul_one]
    _ = _ := by ring

/-- **C88 (violated: height).** For normal and two-half-normal priors the drawn curve lies below the density of the prior
everywhere in the allowed range. -/
theorem C88_too_low (sig : Solver) (config : Config) (name : String) (s : Setting) (hs : config.get? name = some s)
    (hp : Proper sig s.prior) (hu : ∀ lower upper, s.prior ≠ .uniform lower upper) (lo hi : ℝ) (ha : s.allowed = some (lo, hi))
    (f : ℝ → ℝ) (hf : marginalCurve sig config name = .ok (some (some ∘ f))) (p : ℝ → ℝ) (hd : PriorDensity sig s p) (x : ℝ)
    (hx : x ∈ Set.Icc lo hi) : f x < p x := by
  have hshape := C88_shape_partial sig config name s hs hp lo hi ha f hf p hd x hx
  obtain ⟨g, h1, _, h3, h4, _, h6, _⟩ := curve_spec sig config name s hs hp
  have hfg : f = g := some_comp_inj (hf.symm.trans h1)
  subst hfg
  have hm := mass_lt_one h3 h4 (h6 hu) lo hi
  obtain ⟨c', hc', hpe⟩ := density_eq hd ha (hp.evalOK ha)
  have hpx : 0 < p x := by
    rw [hpe, Set.indicator_of_mem hx]
    positivity
  rw [hshape]
  nlinarith

/-- **C88 (violated: outside).** Outside the allowed range, where the prior forbids the parameter, the curve is drawn all the
same. -/
theorem C88_outside (sig : Solver) (config : Config) (name : String) (s : Setting) (hs : config.get? name = some s)
    (hp : Proper sig s.prior) (lo hi : ℝ) (ha : s.allowed = some (lo, hi)) (f : ℝ → ℝ)
    (hf : marginalCurve sig config name = .ok (some (some ∘ f))) (p : ℝ → ℝ) (hd : PriorDensity sig s p) (x : ℝ)
    (hx : x < lo ∨ hi < x) : p x = 0 ∧ 0 < f x := by
  obtain ⟨g, h1, _, _, h4, _⟩ := curve_spec sig config name s hs hp
  have hfg : f = g := some_comp_inj (hf.symm.trans h1)
  subst hfg
  obtain ⟨c, _, hv⟩ := hd.value
  exact ⟨(hv x).2 (logPriorTerm_outside sig s (.fin x) lo hi ha (.inr (.inr ⟨x, rfl, hx⟩))), h4 x⟩

/-- **C88 (uniform).** A uniform prior is drawn at the height of its density exactly if the allowed range is as wide as the
interval of the prior. -/
theorem C88_uniform (sig : Solver) (config : Config) (name : String) (s : Setting) (hs : config.get? name = some s)
    (lower upper : ℝ) (hpr : s.prior = .uniform lower upper) (hlu : lower < upper) (lo hi : ℝ) (hr : lo < hi)
    (ha : s.allowed = some (lo, hi)) (f : ℝ → ℝ) (hf : marginalCurve sig config name = .ok (some (some ∘ f))) (p : ℝ → ℝ)
    (hd : PriorDensity sig s p) (x : ℝ) (hx : x ∈ Set.Icc lo hi) :
    p x = 1 / (hi - lo) ∧ f x = 1 / (upper - lower) ∧ (f x = p x ↔ hi - lo = upper - lower) := by
  have hp : Proper sig s.prior := by rw [hpr]; exact hlu
  have hshape := C88_shape_partial sig config name s hs hp lo hi ha f hf p hd x hx
  obtain ⟨g, h1, _, _, _, _, _, h7⟩ := curve_spec sig config name s hs hp
  have hfg : f = g := some_comp_inj (hf.symm.trans h1)
  subst hfg
  have hg := h7 lower upper hpr
  have hw : 0 < upper - lower := sub_pos.2 hlu
  have hr' : 0 < hi - lo := sub_pos.2 hr
  have hpx : p x = 1 / (hi - lo) := by
    simp only [hg, setIntegral_const, smul_eq_mul, Real.volume_real_Icc_of_le hr.le] at hshape
    field_simp at hshape ⊢
    linarith
  refine ⟨hpx, hg x, ?_⟩
  rw [hpx, hg x, one_div, one_div, inv_inj]
  exact eq_comm

/-- **C88 (density).** Over a proper allowed range every proper prior has a density. -/
theorem C88_density_exists (sig : Solver) (s : Setting) (hp : Proper sig s.prior) (lo hi : ℝ) (hr : lo < hi)
    (ha : s.allowed = some (lo, hi)) : ∃ p, PriorDensity sig s p := by
  obtain ⟨f, _, _, h3, h4, ⟨c, hc, hf⟩, _⟩ := curve_spec sig [("", s)] "" s rfl hp
  have hm := mass_pos h3 h4 hr
  refine ⟨(Set.Icc lo hi).indicator (fun x => f x / ∫ t in Set.Icc lo hi, f t), ⟨c / ∫ t in Set.Icc lo hi, f t, by positivity, ?_⟩, ?_⟩
  · intro x
    by_cases hx : x ∈ Set.Icc lo hi
    · rw [Set.indicator_of_mem hx, logPriorTerm_inside sig s x lo hi ha (hp.evalOK ha) hx.1 hx.2]
      refine ⟨fun l hl => ?_, fun hl => by cases hl⟩
      cases hl
      rw [hf x]
      ring
    · rw [Set.indicator_of_notMem hx]
      have : x < lo ∨ hi < x := by
        by_contra hcon
        push Not at hcon
        exact hx hcon
      rw [logPriorTerm_outside sig s (.fin x) lo hi ha (.inr (.inr ⟨x, rfl, this⟩))]
      exact ⟨fun l hl => (by cases hl), fun _ => rfl⟩
  · rw [integral_indicator measurableSet_Icc, integral_div, div_self hm.ne']

/-- **C88 (unknown names).** A name without an entry in the configuration is a `KeyError` in the marginal plot and has no curve in
the corner plot. -/
theorem C88_unknown (sig : Solver) (config : Config) (name : String) (hs : config.get? name = none) :
    marginalCurve sig config name = .error .keyError ∧ cornerCurve sig config name = .ok none := by
  constructor
  · unfold marginalCurve
    simp [PyDict.getItem, hs, bind, Except.bind]
  · unfold cornerCurve
    rw [hs]

/-- A configuration with another name. -/
example (sig : Solver) : marginalCurve sig [("g1", ⟨.norm 1 1, some (0, 3), none⟩)] "g2" = .error .keyError ∧
    cornerCurve sig [("g1", ⟨.norm 1 1, some (0, 3), none⟩)] "g2" = .ok none := C88_unknown sig _ "g2" rfl

/-- **C88 (other priors).** A free parameter has no curve.  Zero width of a normal prior draws nothing, an interval of zero width
is a `ZeroDivisionError`, unsolvable errors are an `AssertionError`; a negative width of a normal prior, with which the fit runs
as with its absolute value, draws the curve upside down; a prior type the plot does not know is a `KeyError` in the marginal
plot and no curve in the corner plot. -/
theorem C88_other (sig : Solver) (config : Config) (name : String) (s : Setting) (hs : config.get? name = some s) :
    (s.prior = .free → marginalCurve sig config name = .ok none ∧ cornerCurve sig config name = .ok none) ∧
    (∀ m, s.prior = .norm m 0 → marginalCurve sig config name = .ok (some fun _ => none)) ∧
    (∀ a, s.prior = .uniform a a → marginalCurve sig config name = .error .zeroDivision ∧
      cornerCurve sig config name = .error .zeroDivision) ∧
    (∀ mu ep en, s.prior = .twohalfnorm mu ep en → (∀ a b, sig (ep, en) = some (a, b) → a ≤ 0 ∨ b ≤ 0) →
      marginalCurve sig config name = .error .assertionError ∧ cornerCurve sig config name = .error .assertionError) ∧
    (∀ m std, s.prior = .norm m std → std < 0 → ∃ f : ℝ → ℝ, marginalCurve sig config name = .ok (some (some ∘ f)) ∧
      (∀ x, f x < 0) ∧ ∀ x, logPriorTerm sig { s with prior := .norm m (-std) } x = logPriorTerm sig s x) ∧
    ((∃ v, s.prior = .fixed v) ∨ s.prior = .other → marginalCurve sig config name = .error .keyError ∧
      cornerCurve sig config name = .ok none) := by
  refine ⟨fun h => ?_, fun m h => ?_, fun a h => ?_, fun mu ep en h hn => ?_, fun m std h hlt => ?_, fun h => ?_⟩
  · simp only [marginalCurve, cornerCurve, PyDict.getItem, hs, h, Bind.bind, Except.bind, Pure.pure, Except.pure, and_self]
  · simp only [marginalCurve, PyDict.getItem, hs, h, Bind.bind, Except.bind, Pure.pure, Except.pure]
    congr 2
    funext x
    simp [normPdf]
  · simp only [marginalCurve, cornerCurve, PyDict.getItem, hs, h, uniformPdf, sub_self, if_true, Bind.bind, Except.bind, Except.map,
      and_self]
  · have : thnPdf sig mu ep en = .error .assertionError := by
      unfold thnPdf
      cases hsig : sig (ep, en) with
      | none => rfl
      | some ab =>
        obtain ⟨a, b⟩ := ab
        have := hn a b hsig
        have hneg : ¬ (0 < a ∧ 0 < b) := by
          rintro ⟨h1, h2⟩
          rcases this with h | h <;> linarith
        simp only [hneg, if_false]
    simp only [marginalCurve, cornerCurve, PyDict.getItem, hs, h, this, Bind.bind, Except.bind, Except.map, and_self]
  · refine ⟨normVal m std, ?_, fun x => ?_, fun x => ?_⟩
    · simp only [marginalCurve, PyDict.getItem, hs, h, normPdf_ok m hlt.ne, Bind.bind, Except.bind, Pure.pure, Except.pure]
    · unfold normVal
      have hpi : 0 < Real.sqrt (2 * Real.pi) := Real.sqrt_pos.2 (by positivity)
      exact div_neg_of_pos_of_neg (by positivity) hlt
    · simp only [logPriorTerm, h, neg_sq]
  · rcases h with ⟨v, h⟩ | h <;>
      simp only [marginalCurve, cornerCurve, PyDict.getItem, hs, h, Bind.bind, Except.bind, and_self]

/-- Non-vacuity: a normal prior allowed within one standard deviation; the curve at the mean is below the density there. -/
example (sig : Solver) : ∃ (f p : ℝ → ℝ) (s : Setting), marginalCurve sig [("g1", s)] "g1" = .ok (some (some ∘ f)) ∧
    PriorDensity sig s p ∧ f 0 < p 0 ∧ p 2 = 0 ∧ 0 < f 2 := by
  have hp : Proper sig (⟨.norm 0 1, some (-1, 1), none⟩ : Setting).prior := by change (0 : ℝ) < 1; norm_num
  obtain ⟨p, hd⟩ := C88_density_exists sig ⟨.norm 0 1, some (-1, 1), none⟩ hp (-1) 1 (by norm_num) rfl
  obtain ⟨f, hf, _, _⟩ := C88_drawn sig [("g1", ⟨.norm 0 1, some (-1, 1), none⟩)] "g1" _ rfl hp
  obtain ⟨h1, h2⟩ := C88_outside sig _ "g1" _ rfl hp (-1) 1 rfl f hf p hd 2 (by norm_num)
  exact ⟨f, p, _, hf, hd, C88_too_low sig _ "g1" _ rfl hp (fun _ _ h => by cases h) (-1) 1 rfl f hf p hd 0 (by norm_num), h1, h2⟩

/-- Non-vacuity: a two-half-normal prior over a range that holds it. -/
example : ∃ p, PriorDensity (fun e => some e) ⟨.twohalfnorm 5 2 1, some (0, 10), none⟩ p :=
  C88_density_exists _ _ ⟨2, 1, rfl, by norm_num, by norm_num⟩ 0 10 (by norm_num) rfl

/-- Non-vacuity: a uniform prior on `[0, 10]` allowed in `[0, 5]` is drawn at half its height. -/
example (sig : Solver) (f p : ℝ → ℝ) (hf : marginalCurve sig [("r", ⟨.uniform 0 10, some (0, 5), none⟩)] "r" = .ok (some (some ∘ f)))
    (hd : PriorDensity sig ⟨.uniform 0 10, some (0, 5), none⟩ p) : f 3 = 1 / 10 ∧ p 3 = 1 / 5 := by
  obtain ⟨h1, h2, _⟩ := C88_uniform sig _ "r" _ rfl 0 10 rfl (by norm_num) 0 5 (by norm_num) rfl f hf p hd 3 (by norm_num)
  exact ⟨by rw [h2]; norm_num, by rw [h1]; norm_num⟩

end Verif.Plot
