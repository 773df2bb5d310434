/-
C128: literature likelihoods compare the yields inside the configured energy range.
-/
import Verif.Model.Literature
import Verif.Props.Likelihood
import Verif.Props.Plugins
import Verif.Lemmas.RoundedCounts
import Mathlib.MeasureTheory.Integral.IntervalIntegral.Basic
import Mathlib.MeasureTheory.Measure.Lebesgue.Basic
import Mathlib.MeasureTheory.Measure.Prod

namespace Verif.Lit
open Verif Plugins Llh

variable {K : Type}

/-- The likelihood has one component, and this component returns `row` for the key and the parameters. -/
def Runs (al : PyDict String String) (s : LitState K) (key k' : K) (p : PyDict String XF) (row : Grid XF) : Prop :=
  ∃ n c, s.components = [(n, c)] ∧ c key 1 (replaceAlias al p) = .ok (k', row)

/-- The centre of a point is in the energy range. -/
def inRange (lower upper : ℝ) (q : Point) : Prop := lower ≤ q.center ∧ q.center ≤ upper

theorem clipEff_eq (lower upper c : ℝ) {d : Decidable (lower ≤ c ∧ c ≤ upper)} :
    monoEnergiesClipEff lower upper (.fin c) = .fin (if lower ≤ c ∧ c ≤ upper then 1 else 0) := by
  by_cases h : lower ≤ c ∧ c ≤ upper
  · rw [if_pos h]
    exact (C51_clip lower upper (.fin c)).1.2 ⟨c, rfl, h⟩
  · rw [if_neg h]
    refine (C51_clip lower upper (.fin c)).2.2 ?_
    rintro ⟨e, he, h1⟩
    cases he
    exact h h1

open Classical in
/-- **C128 (measured points, part).** If the simulated yields of all points are finite, the log likelihood is the sum over the points whose
centre is in the energy range of the log densities of the simulated yields; the points outside the range do not matter.
Missing: yields that are not finite, see `C128_zero_energy`. -/
theorem C128_points_partial (al : PyDict String String) (hal : PlainAliases al) (s : LitState K) (key k' : K) (batch : Int)
    (par : PyDict String XF) (v : XF) (light : Bool) (lower upper : ℝ) (p : Pars) (pts : List (Point × ℝ)) (y : Point × ℝ → ℝ)
    (hy : ∀ q ∈ pts, yieldOf light p (max q.2 0) = .fin (y q))
    (hrun : Runs al s key k' par (monoRow light lower upper p pts))
    (h : litLogLikelihood al (pointShape (pts.map Prod.fst)) s key batch par = .ok (k', v)) :
    v = .fin ((pts.filter (fun q => decide (inRange lower upper q.1))).map
      (fun q => Real.log (twoHalfDensity q.1.mu q.1.sp q.1.sn (y q)))).sum := by
  obtain ⟨n, c, hc, hr⟩ := hrun
  have hys : pts.map (fun q => yieldOf light p (max q.2 0)) = pts.map (fun q => XF.fin (y q)) :=
    List.map_congr_left hy
  have := C39_values_twohalfnorm al hal s key k' batch par v n c (pts.map (fun q => .fin (max q.2 0)))
    (pts.map (fun q => (q.1.mu, q.1.sp, q.1.sn, y q, if inRange lower upper q.1 then (1 : ℝ) else 0))) hc (by
      rw [hr]
      simp only [monoRow, hys, List.map_map]
      congr 5
      refine List.map_congr_left fun q _ => ?_
      simp only [Function.comp, inRange]
      exact clipEff_eq _ _ _) (by
      simpa only [pointShape, List.map_map, Function.comp_def] using h)
  rw [this, List.map_map]
  congr 1
  clear * -
  induction pts with
  | nil => rfl
  | cons q pts ih =>
    by_cases hq : inRange lower upper q.1
    · rw [List.filter_cons_of_pos (by simpa using hq)]
      simp [ih, hq]
    · rw [List.filter_cons_of_neg (by simpa using hq)]
      simp [ih, hq]

/-- **C128 (finite light yields).** The light yield of a positive energy is finite for positive `theta`. -/
theorem C128_positive_energy (p : Pars) (ht : 0 < p.theta) (energy : ℝ) (he : 0 < energy) :
    lightYield p energy = .fin (lyNR p.theta p.iota energy (totalQuanta p.alpha p.beta energy) (chargeYield p energy)) := by
  have hb : 0 < energy / p.theta := div_pos he ht
  have hpw : fpow (energy / p.theta) p.iota = .fin ((energy / p.theta) ^ p.iota) := by
    unfold fpow
    rw [if_neg (fun h => absurd h.1 (not_lt.2 hb.le)), if_neg (fun h => absurd h.1 (ne_of_gt hb))]
  have hne : 1 + (energy / p.theta) ^ p.iota ≠ 0 := ne_of_gt (by have := Real.rpow_pos_of_pos hb p.iota; linarith)
  unfold lightYield lyX lyNR clip
  rw [XF.fin_div_fin_of_ne _ (ne_of_gt he), jmin_pinf, hpw, XF.fin_add_fin, XF.fin_div_fin_of_ne _ hne]
  show jmax ((XF.fin _ + -(XF.fin _)) * (XF.fin _ + -(XF.fin _))) _ = _
  rw [XF.neg_fin, XF.neg_fin, XF.fin_add_fin, XF.fin_add_fin, XF.fin_mul_fin, jmax_fin, ← sub_eq_add_neg, ← sub_eq_add_neg]

/-- **C128 (which yields).** For positive parameters and a positive energy, the charge yield that is compared is one over the Thomas-Imel
parameter `γ F^δ (ρ / 2.9)^0.3` and the square root of `E + ε`, cut off around `ζ`; the light yield is the quanta per energy `α E^(β - 1)`
that are not charge, cut off around `θ`, and none if there is more charge than quanta. -/
theorem C128_yields (p : Pars) (energy : ℝ) (he : 0 < energy) (hg : 0 < p.gamma) (hf : 0 < p.field) (hd : 0 < p.density) (hep : 0 ≤ p.epsilon)
    (hz : 0 < p.zeta) (ht : 0 < p.theta) :
    yieldOf false p energy =
      .fin (rolloff p.zeta p.eta energy / (p.gamma * p.field ^ p.delta * (p.density / 2.9) ^ (0.3 : ℝ) * √(energy + p.epsilon))) ∧
    ∀ qy, yieldOf false p energy = .fin qy →
      yieldOf true p energy = .fin (max (p.alpha * energy ^ (p.beta - 1) - qy) 0 * rolloff p.theta p.iota energy) := by
  have hcut : ∀ c b : ℝ, 0 < c → 1 - 1 / (1 + (energy / c) ^ b) = rolloff c b energy := by
    intro c b hc
    have h1 : 0 < energy ^ b := Real.rpow_pos_of_pos he b
    have h2 : 0 < c ^ b := Real.rpow_pos_of_pos hc b
    rw [Real.div_rpow he.le hc.le]
    unfold rolloff
    field_simp
    ring
  have hpos : ∀ c b : ℝ, 0 < c → 0 < rolloff c b energy := by
    intro c b hc
    have h1 : 0 < energy ^ b := Real.rpow_pos_of_pos he b
    have h2 : 0 < c ^ b := Real.rpow_pos_of_pos hc b
    unfold rolloff
    positivity
  have hti : 0 < p.gamma * p.field ^ p.delta * (p.density / 2.9) ^ (0.3 : ℝ) := by
    have h1 := Real.rpow_pos_of_pos hf p.delta
    have h2 := Real.rpow_pos_of_pos (div_pos hd (by norm_num : (0 : ℝ) < 2.9)) (0.3 : ℝ)
    positivity
  have hs : 0 < √(energy + p.epsilon) := Real.sqrt_pos.2 (by linarith)
  refine ⟨?_, ?_⟩
  · show XF.fin (chargeYield p energy) = _
    unfold chargeYield qyNR thomasImelBox
    rw [hcut _ _ hz, max_eq_left]
    · congr 1
      rw [div_div, one_div, inv_mul_eq_div]
    · have := hpos p.zeta p.eta hz
      positivity
  · intro qy hq
    have hq' : chargeYield p energy = qy := XF.fin.inj hq
    show lightYield p energy = _
    rw [C128_positive_energy p ht energy he, hq']
    unfold lyNR totalQuanta
    have h1 : p.alpha * energy ^ p.beta / energy = p.alpha * energy ^ (p.beta - 1) := by
      rw [Real.rpow_sub_one (ne_of_gt he), mul_div_assoc]
    rw [hcut _ _ ht, h1]
    congr 1
    rw [max_mul_of_nonneg _ _ (hpos p.theta p.iota ht).le, zero_mul]

/-- Non-vacuity: with all parameters one, the charge yield at energy 3 is positive. -/
example : ∃ qy, yieldOf false ⟨1, 1, 1, 1, 1, 1, 1, 1, 1, 1, 1⟩ 3 = .fin qy ∧ 0 < qy := by
  refine ⟨_, (C128_yields ⟨1, 1, 1, 1, 1, 1, 1, 1, 1, 1, 1⟩ 3 (by norm_num) one_pos one_pos one_pos (by norm_num) one_pos one_pos).1, ?_⟩
  unfold rolloff
  positivity

theorem light_zero (p : Pars) (hb : 0 < p.beta) : lightYield p 0 = .nan := by
  unfold lightYield lyX totalQuanta clip
  rw [Real.zero_rpow (ne_of_gt hb), mul_zero]
  have h : XF.fin 0 / XF.fin 0 = .nan := by simp [XF.infSign]
  rw [h, jmin_pinf]
  show jmax ((XF.nan + -(XF.fin _)) * _) _ = _
  rw [XF.neg_fin]
  simp [jmax]

/-- **C128 (violated: negative `theta`).** For a negative `theta` and an exponent that is no integer the light yield of a positive energy is NaN. -/
theorem C128_negative_theta (p : Pars) (ht : p.theta < 0) (hi : ¬ ∃ k : ℤ, (k : ℝ) = p.iota) (energy : ℝ) (he : 0 < energy) :
    lightYield p energy = .nan := by
  have hb : energy / p.theta < 0 := div_neg_of_pos_of_neg he ht
  have hpw : fpow (energy / p.theta) p.iota = .nan := by
    unfold fpow
    rw [if_pos ⟨hb, hi⟩]
  unfold lightYield lyX clip
  rw [jmin_pinf, hpw, XF.fin_div_fin_of_ne _ (ne_of_gt he)]
  have h1 : XF.fin 1 / (XF.fin 1 + XF.nan) = .nan := by simp
  rw [h1]
  show jmax (_ * (XF.fin _ + -XF.nan)) _ = _
  simp [jmax]

/-- **C128 (violated: NaN yields).** If the yield of any measured point, inside or outside the energy range, is NaN, the log likelihood is minus
infinity. -/
theorem C128_nan_yield (al : PyDict String String) (hal : PlainAliases al) (s : LitState K) (key k' : K) (batch : Int)
    (par : PyDict String XF) (v : XF) (light : Bool) (lower upper : ℝ) (p : Pars) (pts : List (Point × ℝ))
    (q : Point × ℝ) (hq : q ∈ pts) (hd : yieldOf light p (max q.2 0) = .nan) (hrun : Runs al s key k' par (monoRow light lower upper p pts))
    (h : litLogLikelihood al (pointShape (pts.map Prod.fst)) s key batch par = .ok (k', v)) : v = .ninf := by
  obtain ⟨n, c, hc, hr⟩ := hrun
  obtain ⟨n', c', e, y, f, l, m, h1, h2, h3, hm, h4⟩ := litLogLikelihood_ok hal h
  rw [hc] at h1
  simp only [List.cons.injEq, Prod.mk.injEq, and_true] at h1
  obtain ⟨rfl, rfl⟩ := h1
  rw [hr] at h2
  simp only [monoRow, Except.ok.injEq, Prod.mk.injEq, List.cons.injEq, and_true, true_and] at h2
  obtain ⟨rfl, rfl, rfl⟩ := h2
  have hl : XF.nan ∈ List.zipWith (· * ·) l (pts.map (fun q => monoEnergiesClipEff lower upper (.fin q.1.center))) := by
    simp only [logpdf, pointShape] at h3
    split at h3
    · rw [common_same (n := pts.length) (by simp) (by simp)] at h3
      cases h3
      beta_reduce
      rw [spread_same (by simp), spread_same (by simp), spread_same (by simp), spread_same (by simp)]
      clear * - hq hd
      induction pts with
      | nil => cases hq
      | cons r pts ih =>
        simp only [List.map_cons, List.zip_cons_cons, List.zipWith_cons_cons, List.mem_cons]
        rcases List.mem_cons.1 hq with rfl | hq
        · left
          have : twoHalfLogpdf .nan (.fin q.1.mu) (.fin q.1.sp) (.fin q.1.sn) = .nan := by
            unfold twoHalfLogpdf; simp
          rw [hd, this, clipEff_eq (d := Classical.propDecidable _)]
          rfl
        · right
          exact ih hq
    · cases h3
  have hlen : l.length = pts.length := by
    simp only [logpdf, pointShape] at h3
    split at h3
    · rw [common_same (n := pts.length) (by simp) (by simp)] at h3
      cases h3
      beta_reduce
      rw [spread_same (by simp), spread_same (by simp), spread_same (by simp), spread_same (by simp)]
      simp
    · cases h3
  rw [common_same (n := pts.length) (by simp [hlen]) (by simp)] at hm
  cases hm
  rw [spread_same hlen, spread_same (by simp)] at h4
  have hn : (XF.sum (List.zipWith (· * ·) l (pts.map (fun q => monoEnergiesClipEff lower upper (.fin q.1.center))))).isNaN := by
    generalize List.zipWith (· * ·) l _ = zs at hl
    clear * - hl
    induction zs with
    | nil => cases hl
    | cons z zs ih =>
      rw [XF.sum_cons]
      rcases List.mem_cons.1 hl with rfl | hl
      · simp
      · have := ih hl
        generalize XF.sum zs = w at this
        cases z <;> cases w <;> simp_all
  rcases h4 with ⟨_, h4⟩ | ⟨h4, _⟩
  · exact h4
  · exact absurd hn h4

/-- **C128 (violated: energies below zero).** If the draw of the energy of any measured point, inside or outside the energy range, is not
positive, the light yield is NaN and the log likelihood is minus infinity, for all parameters. -/
theorem C128_zero_energy (al : PyDict String String) (hal : PlainAliases al) (s : LitState K) (key k' : K) (batch : Int)
    (par : PyDict String XF) (v : XF) (lower upper : ℝ) (p : Pars) (hb : 0 < p.beta) (pts : List (Point × ℝ))
    (q : Point × ℝ) (hq : q ∈ pts) (hd : q.2 ≤ 0) (hrun : Runs al s key k' par (monoRow true lower upper p pts))
    (h : litLogLikelihood al (pointShape (pts.map Prod.fst)) s key batch par = .ok (k', v)) : v = .ninf :=
  C128_nan_yield al hal s key k' batch par v true lower upper p pts q hq (by rw [max_eq_right hd]; exact light_zero p hb) hrun h

/-! ### Bands -/

theorem energy_affine (lower upper u : ℝ) (hlu : lower ≤ upper) (hu : 0 ≤ u) : uniformEnergy lower upper u = u * (upper - lower) + lower := by
  unfold uniformEnergy
  exact max_eq_right (by nlinarith [mul_nonneg hu (sub_nonneg.2 hlu)])

/-- The log density of a yield within a band. -/
noncomputable def bandLog (xs ys up lo : List ℝ) (energy y : ℝ) : ℝ :=
  Real.log (twoHalfDensity (Interp.linear1d xs ys energy) (Interp.linear1d xs up energy) (Interp.linear1d xs lo energy) y)

/-- **C128 (band, part).** If the energy range is within the measured band, every evaluation compares the yield with the band at an energy of the
range, and is finite.  Missing: ranges that reach out of the band, see `C128_band_gap`. -/
theorem C128_band_partial (al : PyDict String String) (hal : PlainAliases al) (s : LitState K) (key k' : K) (batch : Int)
    (par : PyDict String XF) (v : XF) (light : Bool) (lower upper : ℝ) (hlu : lower ≤ upper) (p : Pars) (u : ℝ) (h0 : 0 ≤ u) (h1 : u ≤ 1)
    (xs ys up lo : List ℝ) (a b : ℝ) (ha : xs.head? = some a) (hb : xs.getLast? = some b) (hal' : a ≤ lower) (hub : upper ≤ b)
    (y : ℝ → ℝ) (hy : yieldOf light p (uniformEnergy lower upper u) = .fin (y (uniformEnergy lower upper u)))
    (hrun : Runs al s key k' par (bandRow light lower upper p u))
    (h : litLogLikelihood al (.band xs ys up lo) s key batch par = .ok (k', v)) :
    lower ≤ uniformEnergy lower upper u ∧ uniformEnergy lower upper u ≤ upper ∧
    v = .fin (bandLog xs ys up lo (uniformEnergy lower upper u) (y (uniformEnergy lower upper u))) := by
  have he := energy_affine lower upper u hlu h0
  have hE : lower ≤ uniformEnergy lower upper u ∧ uniformEnergy lower upper u ≤ upper := by
    rw [he]
    constructor <;> nlinarith [mul_nonneg h0 (sub_nonneg.2 hlu), mul_nonneg (sub_nonneg.2 h1) (sub_nonneg.2 hlu)]
  refine ⟨hE.1, hE.2, ?_⟩
  obtain ⟨n, c, hc, hr⟩ := hrun
  simp only [bandRow] at hr
  generalize uniformEnergy lower upper u = E at *
  obtain ⟨n', c', e', y', f', l, m, g1, g2, g3, gm, g4⟩ := litLogLikelihood_ok hal h
  rw [hc] at g1
  simp only [List.cons.injEq, Prod.mk.injEq, and_true] at g1
  obtain ⟨rfl, rfl⟩ := g1
  rw [hr] at g2
  simp only [Except.ok.injEq, Prod.mk.injEq, List.cons.injEq, and_true, true_and] at g2
  obtain ⟨rfl, rfl, rfl⟩ := g2
  have hi : ∀ zs : List ℝ, interp1d xs zs (.fin E) = .fin (Interp.linear1d xs zs E) := by
    intro zs
    simp only [interp1d, ha, hb]
    rw [if_pos ⟨by linarith, by linarith⟩]
  simp only [logpdf] at g3
  split at g3
  · rename_i has
    rw [common_same (n := 1) (by simp) (by simp)] at g3
    cases g3
    rw [common_same (n := 1) (by simp [spread]) (by simp)] at gm
    cases gm
    simp only [bandAssert, List.all_cons, List.all_nil, Bool.and_true, Bool.and_eq_true, decide_eq_true_eq, hi, XF.not_isNaN_fin, if_false,
      XF.fin_lt_fin] at has
    have hv : bandLogpdf xs ys up lo (.fin E) (yieldOf light p E) = .fin (bandLog xs ys up lo E (y E)) := by
      unfold bandLogpdf
      simp only [hi, XF.not_isNaN_fin, if_false, hy]
      exact C39_two_half_logpdf _ _ _ _ has.1 has.2
    simp only [spread, List.replicate_one, List.zipWith_cons_cons, List.zipWith_nil_left, hv, bandEnergiesClipEff, XF.fin_mul_fin, mul_one] at g4
    rcases g4 with ⟨g4, _⟩ | ⟨_, g4⟩
    · simp [XF.sum_cons] at g4
    · rw [g4]; simp [XF.sum_cons]
  · cases g3

/-- **C128 (average over the range).** Over the uniform draw of the energy the compared log density averages to its mean over the energy range. -/
theorem C128_band_mean (f : ℝ → ℝ) (lower upper : ℝ) (hlu : lower < upper) :
    ∫ u in (0 : ℝ)..1, f (uniformEnergy lower upper u) = (upper - lower)⁻¹ * ∫ e in lower..upper, f e := by
  have h1 : ∫ u in (0 : ℝ)..1, f (uniformEnergy lower upper u) = ∫ u in (0 : ℝ)..1, f ((upper - lower) * u + lower) := by
    refine intervalIntegral.integral_congr fun u hu => ?_
    rw [Set.uIcc_of_le zero_le_one] at hu
    show f _ = f _
    rw [energy_affine lower upper u hlu.le hu.1, mul_comm]
  rw [h1, intervalIntegral.integral_comp_mul_add _ (ne_of_gt (sub_pos.2 hlu)), smul_eq_mul]
  congr 2 <;> ring

/-- **C128 (violated: gaps).** If the energy range begins below the measured band, the log likelihood is minus infinity whenever the draw of the
energy falls in the gap, for all parameters. -/
theorem C128_band_gap (al : PyDict String String) (hal : PlainAliases al) (s : LitState K) (key k' : K) (batch : Int)
    (par : PyDict String XF) (v : XF) (light : Bool) (lower upper : ℝ) (hlu : lower < upper) (p : Pars) (u : ℝ) (h0 : 0 ≤ u)
    (xs ys up lo : List ℝ) (a : ℝ) (ha : xs.head? = some a) (hu : u < (a - lower) / (upper - lower))
    (hrun : Runs al s key k' par (bandRow light lower upper p u))
    (h : litLogLikelihood al (.band xs ys up lo) s key batch par = .ok (k', v)) : v = .ninf := by
  obtain ⟨n, c, hc, hr⟩ := hrun
  refine C39_outside_band al hal xs ys up lo s key k' batch par v n c _ _ _ 0 _ _ _ hc hr rfl rfl rfl ?_ ?_ h
  · intro a' b r ha' hb hr
    rw [ha] at ha'
    cases ha'
    cases hr
    left
    rw [energy_affine lower upper u hlu.le h0]
    rw [lt_div_iff₀ (sub_pos.2 hlu)] at hu
    linarith
  · intro x hx
    simp only [List.mem_cons, List.not_mem_nil, or_false] at hx
    subst hx
    exact .inr ⟨1, zero_le_one, rfl⟩

/-! ### The shipped literature likelihoods -/

/-- The arguments of a shipped likelihood as real numbers. -/
noncomputable def arg (d : LitData) (name : String) : List ℝ := ((PyDict.get? d.args name).getD []).map (fun q : ℚ => (q : ℝ))

/-- A shipped likelihood over a band never returns a number for a draw of the energy below the band: this is the probability. -/
def gapOf (d : LitData) : ℚ := (((PyDict.get? d.args "x").getD []).headD 0 - d.lower) / (d.upper - d.lower)

theorem shipped_bands : ∀ d ∈ shipped, d.shape = "band" → ∃ x rest, PyDict.get? d.args "x" = some (x :: rest) ∧ d.lower < d.upper ∧ d.lower < x ∧
    x < d.upper := by
  simp only [shipped, List.mem_cons, List.not_mem_nil, or_false, forall_eq_or_imp, forall_eq]
  refine ⟨fun h => by simp at h, fun h => by simp at h, fun _ => ⟨_, _, rfl, ?_⟩, fun _ => ⟨_, _, rfl, ?_⟩⟩ <;> norm_num

/-- **C128 (violated by the shipped bands).** Both shipped likelihoods over bands, `ly_lux_2022` and `qy_lux_2022`, simulate energies from zero on, but
their bands begin at 0.45 and 0.27 keV.  Whatever the parameters are, an evaluation returns minus infinity for 18 and 10.8 percent of the draws. -/
theorem C128_shipped_gap (d : LitData) (hd : d ∈ shipped) (hs : d.shape = "band") :
    0 < gapOf d ∧ gapOf d < 1 ∧ MeasureTheory.volume (Set.Ico (0 : ℝ) (gapOf d)) = ENNReal.ofReal (gapOf d) ∧
    ∀ (al : PyDict String String), PlainAliases al → ∀ (s : LitState K) (key k' : K) (batch : Int) (par : PyDict String XF) (v : XF) (light : Bool)
      (p : Pars) (u : ℝ), u ∈ Set.Ico (0 : ℝ) (gapOf d) → Runs al s key k' par (bandRow light d.lower d.upper p u) →
      litLogLikelihood al (.band (arg d "x") (arg d "y") (arg d "yerr_upper") (arg d "yerr_lower")) s key batch par = .ok (k', v) →
      v = .ninf := by
  obtain ⟨x, rest, hx, h1, h2, h3⟩ := shipped_bands d hd hs
  have hg : gapOf d = (x - d.lower) / (d.upper - d.lower) := by simp [gapOf, hx]
  have hp : (0 : ℚ) < d.upper - d.lower := by linarith
  refine ⟨by rw [hg]; exact div_pos (by linarith) hp, by rw [hg, div_lt_one hp]; linarith, by simp, ?_⟩
  intro al hal s key k' batch par v light p u hu hrun h
  refine C128_band_gap al hal s key k' batch par v light d.lower d.upper (by exact_mod_cast h1) p u hu.1 _ _ _ _ (x : ℝ) (by simp [arg, hx]) ?_ hrun h
  have := hu.2
  rw [hg] at this
  push_cast at this
  exact this

/-- The numbers of the last theorem. -/
theorem C128_shipped_numbers : (shipped.filter (fun d => d.shape = "band")).map (fun d => (d.name, gapOf d)) =
    [("ly_lux_2022", 9 / 50), ("qy_lux_2022", 27 / 250)] := by
  decide +kernel

/-- **C128 (both shipped bands).** The energies of the two likelihoods are drawn independently: at least one of them is minus infinity in more than a quarter of all evaluations of the log likelihood of the shipped instruction. -/
theorem C128_shipped_both : MeasureTheory.volume {u : ℝ × ℝ | u ∈ Set.Ico (0 : ℝ) 1 ×ˢ Set.Ico (0 : ℝ) 1 ∧
    (u.1 < ((9 / 50 : ℚ) : ℝ) ∨ u.2 < ((27 / 250 : ℚ) : ℝ))} = ENNReal.ofReal (1 - (1 - 9 / 50) * (1 - 27 / 250)) := by
  have he : {u : ℝ × ℝ | u ∈ Set.Ico (0 : ℝ) 1 ×ˢ Set.Ico (0 : ℝ) 1 ∧ (u.1 < ((9 / 50 : ℚ) : ℝ) ∨ u.2 < ((27 / 250 : ℚ) : ℝ))} =
      (Set.Ico (0 : ℝ) 1 ×ˢ Set.Ico (0 : ℝ) 1) \ (Set.Ico ((9 / 50 : ℚ) : ℝ) 1 ×ˢ Set.Ico ((27 / 250 : ℚ) : ℝ) 1) := by
    ext ⟨u, w⟩
    simp only [Set.mem_ofPred_eq, Set.mem_diff, Set.mem_prod, Set.mem_Ico, not_and, not_lt]
    constructor
    · rintro ⟨h, h'⟩
      refine ⟨h, fun h1 h2 => ?_⟩
      rcases h' with h' | h' <;> linarith [h1.1]
    · rintro ⟨h, h'⟩
      refine ⟨h, ?_⟩
      by_contra hc
      rw [not_or, not_lt, not_lt] at hc
      linarith [h' ⟨hc.1, h.1.2⟩ hc.2, h.2.2]
  rw [he, MeasureTheory.measure_diff, MeasureTheory.Measure.volume_eq_prod, MeasureTheory.Measure.prod_prod, MeasureTheory.Measure.prod_prod]
  · simp only [Real.volume_Ico]
    rw [← ENNReal.ofReal_mul (by norm_num), ← ENNReal.ofReal_mul (by norm_num), ← ENNReal.ofReal_sub _ (by norm_num)]
    norm_num
  · refine Set.prod_mono ?_ ?_ <;> refine Set.Ico_subset_Ico_left ?_ <;> norm_num
  · exact (measurableSet_Ico.prod measurableSet_Ico).nullMeasurableSet
  · rw [MeasureTheory.Measure.volume_eq_prod, MeasureTheory.Measure.prod_prod]
    simp only [Real.volume_Ico]
    exact ENNReal.mul_ne_top ENNReal.ofReal_ne_top ENNReal.ofReal_ne_top

/-- **C128 (shipped points).** The shipped likelihoods over measured points have one energy for every point, positive widths, and these points in their range. -/
theorem C128_shipped_points : (∀ d ∈ shipped, d.shape = "twohalfnorm" →
      (∀ n ∈ ["mu", "sigma_pos", "sigma_neg"], ∃ l e, PyDict.get? d.args n = some l ∧ PyDict.get? d.energies n = some e ∧ l.length = e.length ∧
        (n ≠ "mu" → (∀ w ∈ l, 0 < w) ∧ ∀ w ∈ e, 0 < w))) ∧
    (shipped.filter (fun d => d.shape = "twohalfnorm")).map (fun d => (d.name, ((PyDict.get? d.energies "mu").getD []).filter
      (fun c => d.lower ≤ c ∧ c ≤ d.upper))) =
      [("ly_lux_2016", [27 / 25, 48 / 25]), ("qy_lenardo_2019", [211 / 100, 161 / 100, 97 / 100, 93 / 100, 221 / 500, 37 / 125])] := by
  constructor
  · have : ∀ d ∈ shipped, d.shape = "twohalfnorm" → ∀ n ∈ ["mu", "sigma_pos", "sigma_neg"],
        (PyDict.get? d.args n).isSome ∧ (PyDict.get? d.energies n).isSome ∧
        ((PyDict.get? d.args n).getD []).length = ((PyDict.get? d.energies n).getD []).length ∧
        (n ≠ "mu" → (∀ w ∈ (PyDict.get? d.args n).getD [], 0 < w) ∧ ∀ w ∈ (PyDict.get? d.energies n).getD [], 0 < w) := by decide +kernel
    intro d hd hs n hn
    obtain ⟨h1, h2, h3, h4⟩ := this d hd hs n hn
    obtain ⟨l, hl⟩ := Option.isSome_iff_exists.1 h1
    obtain ⟨e, he⟩ := Option.isSome_iff_exists.1 h2
    exact ⟨l, e, hl, he, by simpa [hl, he] using h3, by simpa [hl, he] using h4⟩
  · decide +kernel

/-- Non-vacuity: a likelihood over two measured points, one of them outside the range. -/
example : ∃ (s : LitState Unit) (v : XF), Runs [] s () () [] (monoRow true 0 2 ⟨1, 1, 1, 1, 1, 1, 1, 1, 1, 1, 1⟩ [(⟨1, 5, 1, 1⟩, 1), (⟨3, 5, 1, 1⟩, 2)]) ∧
    litLogLikelihood [] (pointShape [⟨1, 5, 1, 1⟩, ⟨3, 5, 1, 1⟩]) s () 7 [] = .ok ((), v) ∧ v.isFinite := by
  have hok : ∀ row : Grid XF, row = monoRow true 0 2 ⟨1, 1, 1, 1, 1, 1, 1, 1, 1, 1, 1⟩ [(⟨1, 5, 1, 1⟩, 1), (⟨3, 5, 1, 1⟩, 2)] →
      ∃ v, litLogLikelihood [] (pointShape [⟨1, 5, 1, 1⟩, ⟨3, 5, 1, 1⟩]) (⟨[("nr", fun k _ _ => .ok (k, row))], some "nr"⟩ : LitState Unit) () 7 [] = .ok ((), v) := by
    rintro row rfl
    unfold litLogLikelihood simulateYields
    simp only [List.length_singleton, ne_eq, not_true_eq_false, if_false, PyDict.getItem, PyDict.get?_cons, if_true, bind, Except.bind, monoRow,
      logpdf, pointShape, List.map_cons, List.map_nil]
    rw [if_pos (by simp)]
    rw [common_same (n := 2) (by simp) (by simp)]
    exact ⟨_, rfl⟩
  obtain ⟨v, hv⟩ := hok _ rfl
  have hr : Runs [] (⟨[("nr", fun k _ _ => .ok (k, monoRow true 0 2 ⟨1, 1, 1, 1, 1, 1, 1, 1, 1, 1, 1⟩ [(⟨1, 5, 1, 1⟩, 1), (⟨3, 5, 1, 1⟩, 2)]))], some "nr"⟩ : LitState Unit) () () []
      (monoRow true 0 2 ⟨1, 1, 1, 1, 1, 1, 1, 1, 1, 1, 1⟩ [(⟨1, 5, 1, 1⟩, 1), (⟨3, 5, 1, 1⟩, 2)]) := ⟨"nr", _, rfl, rfl⟩
  refine ⟨_, v, hr, hv, ?_⟩
  have := C128_points_partial [] ⟨by simp [PyDict.keys], by simp [PyDict.keys], by simp⟩ _ () () 7 [] v true 0 2 _ _
    (fun q => lyNR 1 1 (max q.2 0) (totalQuanta 1 1 (max q.2 0)) (chargeYield ⟨1, 1, 1, 1, 1, 1, 1, 1, 1, 1, 1⟩ (max q.2 0)))
    (by
      intro q hq
      refine C128_positive_energy _ one_pos _ ?_
      simp only [List.mem_cons, List.not_mem_nil, or_false] at hq
      rcases hq with rfl | rfl <;> norm_num) hr hv
  rw [this]
  trivial

end Verif.Lit
