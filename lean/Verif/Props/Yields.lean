/-
Properties of the mean yields of the shipped plugins (C52).
-/
import Verif.Lemmas.Plugins
import Mathlib.Analysis.SpecialFunctions.Log.Deriv
import Mathlib.Analysis.Complex.ExponentialBounds
import Mathlib.Analysis.SpecialFunctions.Pow.Asymptotics
import Mathlib.Analysis.SpecialFunctions.Pow.Continuity

namespace Verif.Plugins
open Verif

/-! ### NEST NR -/

/-- C52: mean excitons plus mean ions are the mean photons plus electrons, for every Thomas-Imel parameter that is not zero. -/
theorem C52_quanta (ti nph ne : ℝ) (h : ti ≠ 0) :
    (meanExcitonIon ti nph ne).nex + (meanExcitonIon ti nph ne).ni = nph + ne := by
  unfold meanExcitonIon
  simp only []
  field_simp
  ring

/-- C52: there are at least as many mean ions as mean electrons, none without electrons. -/
theorem C52_ions (ti nph ne : ℝ) (h : 0 < ti) (hne : 0 ≤ ne) :
    ne ≤ (meanExcitonIon ti nph ne).ni ∧ ((meanExcitonIon ti nph ne).ni = 0 ↔ ne = 0) := by
  unfold meanExcitonIon
  simp only []
  have hx : ne * ti / 4 + 1 ≤ Real.exp (ne * ti / 4) := Real.add_one_le_exp _
  have h1 : ne ≤ 4 / ti * (Real.exp (ne * ti / 4) - 1) := by
    rw [div_mul_eq_mul_div, le_div_iff₀ h]
    linarith
  refine ⟨h1, fun h0 => le_antisymm (h1.trans h0.le) hne, ?_⟩
  rintro rfl
  simp

/-- C52: the recombination probability is a probability, the fraction of the mean ions that leave no electron; it is below one
exactly when electrons are expected. -/
theorem C52_recombination (ti nph ne : ℝ) (h : 0 < ti) (hph : 0 ≤ nph) (hne : 0 ≤ ne) :
    0 ≤ (meanExcitonIon ti nph ne).recombProb ∧ (meanExcitonIon ti nph ne).recombProb ≤ 1
    ∧ ((meanExcitonIon ti nph ne).recombProb < 1 ↔ 0 < ne)
    ∧ (0 < ne → (1 - (meanExcitonIon ti nph ne).recombProb) * (meanExcitonIon ti nph ne).ni = ne) := by
  obtain ⟨hi, hi0⟩ := C52_ions ti nph ne h hne
  have hq := C52_quanta ti nph ne h.ne'
  rcases hne.eq_or_lt with he | he
  · subst he
    have hni : (meanExcitonIon ti nph 0).ni = 0 := hi0.2 rfl
    have hr : (meanExcitonIon ti nph 0).recombProb = 1 := by
      unfold meanExcitonIon
      simp
    rw [hr]
    exact ⟨zero_le_one, le_refl _, by simp, by simp⟩
  · have hni : 0 < (meanExcitonIon ti nph ne).ni := lt_of_lt_of_le he hi
    have hr : (meanExcitonIon ti nph ne).recombProb = 1 - ne / (meanExcitonIon ti nph ne).ni := by
      have hrat : (meanExcitonIon ti nph ne).ratio = (meanExcitonIon ti nph ne).nex / (meanExcitonIon ti nph ne).ni := by
        change (if 0 < (meanExcitonIon ti nph ne).ni then _ else _) = _
        rw [if_pos hni]
        rfl
      have hfr : (meanExcitonIon ti nph ne).elecFrac = ne / (nph + ne) := by
        change (if 0 < nph + ne then _ else _) = _
        rw [if_pos (by linarith)]
      change 1 - ((meanExcitonIon ti nph ne).ratio + 1) * (meanExcitonIon ti nph ne).elecFrac = _
      rw [hrat, hfr]
      have h1 : (meanExcitonIon ti nph ne).nex / (meanExcitonIon ti nph ne).ni + 1
          = (nph + ne) / (meanExcitonIon ti nph ne).ni := by
        rw [div_add_one hni.ne', hq]
      rw [h1]
      have : nph + ne ≠ 0 := by linarith
      field_simp
    rw [hr]
    have hd : 0 < ne / (meanExcitonIon ti nph ne).ni := div_pos he hni
    have hd1 : ne / (meanExcitonIon ti nph ne).ni ≤ 1 := (div_le_one hni).2 hi
    refine ⟨by linarith, by linarith, ⟨fun _ => he, fun _ => by linarith⟩, fun _ => ?_⟩
    field_simp
    ring

/-- C52: the ion fraction is positive, and a probability exactly when the mean number of excitons is not negative. -/
theorem C52_ion_fraction (ti nph ne : ℝ) (h : 0 < ti) (hph : 0 ≤ nph) (hne : 0 < ne) :
    (meanExcitonIon ti nph ne).alf * (nph + ne) = (meanExcitonIon ti nph ne).ni
    ∧ 0 < (meanExcitonIon ti nph ne).alf
    ∧ ((meanExcitonIon ti nph ne).alf ≤ 1 ↔ 0 ≤ (meanExcitonIon ti nph ne).nex) := by
  obtain ⟨hi, _⟩ := C52_ions ti nph ne h hne.le
  have hq := C52_quanta ti nph ne h.ne'
  have hni : 0 < (meanExcitonIon ti nph ne).ni := lt_of_lt_of_le hne hi
  have ha : (meanExcitonIon ti nph ne).alf = (meanExcitonIon ti nph ne).ni / (nph + ne) := by
    have hrat : (meanExcitonIon ti nph ne).ratio = (meanExcitonIon ti nph ne).nex / (meanExcitonIon ti nph ne).ni := by
      change (if 0 < (meanExcitonIon ti nph ne).ni then _ else _) = _
      rw [if_pos hni]
      rfl
    change 1 / (1 + (meanExcitonIon ti nph ne).ratio) = _
    rw [hrat, add_comm, div_add_one hni.ne', hq, one_div_div]
  have hs : 0 < nph + ne := by linarith
  rw [ha]
  refine ⟨by field_simp, div_pos hni hs, ?_⟩
  rw [div_le_one hs]
  constructor <;> intro h' <;> linarith

/-- C52, a disagreement: with electrons but without photons, which the clip of the light yield makes whenever the charge yield
reaches the quanta per energy, the mean number of excitons is negative and the ion fraction above one. -/
theorem C52_negative_excitons (theta iota energy nq ti : ℝ) (qy : ℝ) (he : 0 < energy) (ht : 0 < ti) (hi : 0 < theta)
    (hq : nq / energy ≤ qy) (h1 : 1 ≤ qy * energy) :
    let m := meanNphNe (lyNR theta iota energy nq qy) qy energy
    (meanExcitonIon ti m.1 m.2).nex < 0 ∧ 1 < (meanExcitonIon ti m.1 m.2).alf := by
  have hly : lyNR theta iota energy nq qy = 0 := by
    unfold lyNR
    apply max_eq_right
    apply mul_nonpos_of_nonpos_of_nonneg
    · linarith
    · have : 0 ≤ (energy / theta) ^ iota := Real.rpow_nonneg (by positivity) _
      rw [sub_nonneg]
      rw [div_le_one (by linarith)]
      linarith
  have hm : meanNphNe (lyNR theta iota energy nq qy) qy energy = (0, qy * energy) := by
    unfold meanNphNe
    rw [hly]
    simp [h1]
  rw [hm]
  simp only []
  have hne : 0 < qy * energy := by linarith
  have hnex : (meanExcitonIon ti 0 (qy * energy)).nex < 0 := by
    unfold meanExcitonIon
    simp only [add_zero]
    have hx : qy * energy * ti / 4 + 1 < Real.exp (qy * energy * ti / 4) := Real.add_one_lt_exp (by positivity)
    apply mul_neg_of_neg_of_pos
    · exact div_neg_of_neg_of_pos (by norm_num) ht
    · linarith
  refine ⟨hnex, ?_⟩
  by_contra hc
  have := ((C52_ion_fraction ti 0 (qy * energy) ht (le_refl _) hne).2.2).1 (not_lt.1 hc)
  linarith

/-- C52: yields are never negative; the light and charge yields add up to at most the quanta per energy when the charge yield
stays below those, for positive shape parameters. -/
theorem C52_yields (epsilon zeta eta theta iota energy nq ti : ℝ) (he : 0 < energy) (hth : 0 < theta) :
    0 ≤ qyNR epsilon zeta eta energy ti ∧ (∀ qy, 0 ≤ lyNR theta iota energy nq qy)
    ∧ ∀ qy, qy ≤ nq / energy → qy + lyNR theta iota energy nq qy ≤ nq / energy := by
  refine ⟨le_max_right _ _, fun _ => le_max_right _ _, fun qy hq => ?_⟩
  have hp : 0 ≤ (energy / theta) ^ iota := Real.rpow_nonneg (by positivity) _
  have hf : 1 - 1 / (1 + (energy / theta) ^ iota) ≤ 1 := by
    have : 0 ≤ 1 / (1 + (energy / theta) ^ iota) := by positivity
    linarith
  have : lyNR theta iota energy nq qy ≤ nq / energy - qy := by
    unfold lyNR
    apply max_le
    · exact mul_le_of_le_one_right (by linarith) hf
    · linarith
  linarith

/-- **C52 (NR low-energy cut-off).** For positive inputs both nuclear-recoil yields are what they would be without cut-off times
`E^b / (E^b + c^b)`: below one, half at the cut-off energy, growing with the energy, from nothing to all of it. -/
theorem C52_nr_rolloff (energy c b : ℝ) (he : 0 < energy) (hc : 0 < c) (hb : 0 < b) :
    (∀ epsilon ti, 0 < ti → 0 ≤ epsilon →
      qyNR epsilon c b energy ti = 1 / (ti * √(energy + epsilon)) * rolloff c b energy) ∧
    (∀ nq qy, qy ≤ nq / energy → lyNR c b energy nq qy = (nq / energy - qy) * rolloff c b energy) ∧
    0 < rolloff c b energy ∧ rolloff c b energy < 1 ∧ rolloff c b c = 1 / 2 ∧
    (∀ e', energy < e' → rolloff c b energy < rolloff c b e') ∧
    Filter.Tendsto (rolloff c b) (nhdsWithin 0 (Set.Ioi 0)) (nhds 0) ∧ Filter.Tendsto (rolloff c b) Filter.atTop (nhds 1) := by
  have hcut : ∀ e, 0 < e → 1 - 1 / (1 + (e / c) ^ b) = rolloff c b e := by
    intro e he
    have h1 : 0 < e ^ b := Real.rpow_pos_of_pos he b
    have h2 : 0 < c ^ b := Real.rpow_pos_of_pos hc b
    rw [Real.div_rpow he.le hc.le]
    unfold rolloff
    field_simp
    ring
  have hp : ∀ e, 0 < e → 0 < rolloff c b e ∧ rolloff c b e < 1 := by
    intro e he
    have h1 : 0 < e ^ b := Real.rpow_pos_of_pos he b
    have h2 : 0 < c ^ b := Real.rpow_pos_of_pos hc b
    unfold rolloff
    exact ⟨by positivity, by rw [div_lt_one (by positivity)]; linarith⟩
  refine ⟨?_, ?_, (hp energy he).1, (hp energy he).2, ?_, ?_, ?_, ?_⟩
  · intro epsilon ti hti heps
    unfold qyNR
    rw [hcut energy he, max_eq_left, div_div]
    have := (hp energy he).1
    positivity
  · intro nq qy hq
    unfold lyNR
    rw [hcut energy he, max_eq_left]
    exact mul_nonneg (by linarith) (hp energy he).1.le
  · have h2 : 0 < c ^ b := Real.rpow_pos_of_pos hc b
    unfold rolloff
    field_simp
    norm_num
  · intro e' hlt
    have h1 : 0 < energy ^ b := Real.rpow_pos_of_pos he b
    have h2 : 0 < c ^ b := Real.rpow_pos_of_pos hc b
    have h3 : energy ^ b < e' ^ b := Real.rpow_lt_rpow he.le hlt hb
    unfold rolloff
    rw [div_lt_div_iff₀ (by positivity) (by linarith)]
    nlinarith
  · have h2 : 0 < c ^ b := Real.rpow_pos_of_pos hc b
    have h0 : Filter.Tendsto (fun e : ℝ => e ^ b) (nhdsWithin 0 (Set.Ioi 0)) (nhds 0) := by
      have := (Real.continuousAt_rpow_const (0 : ℝ) b (.inr hb.le)).tendsto
      rw [Real.zero_rpow hb.ne'] at this
      exact this.mono_left nhdsWithin_le_nhds
    have := h0.div (h0.add_const (c ^ b)) (by simp [h2.ne'])
    rw [zero_add, zero_div] at this
    exact this
  · have h2 : 0 < c ^ b := Real.rpow_pos_of_pos hc b
    have h0 : Filter.Tendsto (fun e : ℝ => e ^ b) Filter.atTop Filter.atTop := tendsto_rpow_atTop hb
    have h1 : Filter.Tendsto (fun e : ℝ => 1 - c ^ b / (e ^ b + c ^ b)) Filter.atTop (nhds (1 - 0)) :=
      tendsto_const_nhds.sub ((Filter.tendsto_atTop_add_const_right _ _ h0).const_div_atTop _)
    rw [sub_zero] at h1
    refine h1.congr' ?_
    filter_upwards [Filter.eventually_gt_atTop 0] with e he
    have : 0 < e ^ b := Real.rpow_pos_of_pos he b
    unfold rolloff
    field_simp
    ring

/-- Non-vacuity of C52 (cut-off): 50 quanta at 1 keV with a cut-off at 1 keV: half of what is there without. -/
example : lyNR 1 2 1 50 10 = 20 := by
  rw [(C52_nr_rolloff 1 1 2 one_pos one_pos two_pos).2.1 50 10 (by norm_num),
    (C52_nr_rolloff 1 1 2 one_pos one_pos two_pos).2.2.2.2.1]
  norm_num

/-- C52: mean photons and electrons are kept together or dropped together, and dropped exactly when they add up to less than one. -/
theorem C52_validity (ly qy energy : ℝ) :
    ((meanNphNe ly qy energy) = (ly * energy, qy * energy) ∧ 1 ≤ (meanNphNe ly qy energy).1 + (meanNphNe ly qy energy).2)
    ∨ ((meanNphNe ly qy energy) = (0, 0) ∧ ly * energy + qy * energy < 1) := by
  unfold meanNphNe
  by_cases h : 1 ≤ ly * energy + qy * energy
  · left; simp [h]
  · right; simp [h]; exact not_le.1 h

/-- C52: the variance of the electron number is not negative, so its root is a number. -/
theorem C52_variance (omega recombProb : ℝ) (ni : ℤ) (h0 : 0 ≤ recombProb) (h1 : recombProb ≤ 1) (hi : 0 ≤ ni) :
    0 ≤ variance omega recombProb ni := by
  unfold variance
  have hi' : (0 : ℝ) ≤ ni := by exact_mod_cast hi
  have := mul_nonneg (mul_nonneg h0 (sub_nonneg.2 h1)) hi'
  have h2 : omega * omega * ni * ni = (omega * ni) ^ 2 := by ring
  rw [h2]
  positivity

/-- A case of the NR statements: four expected electrons and twenty photons at unit Thomas-Imel parameter. -/
example : 0 < (meanExcitonIon 1 20 4).nex ∧ (meanExcitonIon 1 20 4).recombProb < 1 ∧ (meanExcitonIon 1 20 4).alf ≤ 1 := by
  have hx : 0 < (meanExcitonIon 1 20 4).nex := by
    unfold meanExcitonIon
    have h := Real.exp_one_lt_d9
    norm_num at h ⊢
    linarith
  exact ⟨hx, (C52_recombination 1 20 4 one_pos (by norm_num) (by norm_num)).2.2.1.2 (by norm_num),
    (C52_ion_fraction 1 20 4 one_pos (by norm_num) (by norm_num)).2.2.2 hx.le⟩

/-- The hypotheses of the disagreement can be met. -/
example : (10 : ℝ) / 1 ≤ 12 ∧ (1 : ℝ) ≤ 12 * 1 := by norm_num

/-! ### NEST ER -/

/-- C52: light and charge yield add up to the inverse work function exactly when the charge yield does not exceed it; otherwise
there is no light. -/
theorem C52_er_yields (w qy : ℝ) :
    (lyER w qy + qy = 1 / w ↔ qy ≤ 1 / w) ∧ (1 / w ≤ qy → lyER w qy = 0) ∧ 0 ≤ lyER w qy := by
  unfold lyER
  refine ⟨⟨fun h => ?_, fun h => ?_⟩, fun h => max_eq_right (by linarith), le_max_right _ _⟩
  · have := le_max_right (1 / w - qy) 0
    linarith
  · rw [max_eq_left (by linarith)]
    ring

/-- C52: the density factors of the charge yield cancel: the charge yield is the clipped sum, whatever the density. -/
theorem C52_density_cancels (density sum : ℝ) (h : 0 < density) : qyER density sum = max sum 0 := by
  unfold qyER qyCoefficient
  simp only []
  have h1 : 0 < (1 / density) ^ (0.3 : ℝ) * (1 / density) ^ (1.4 : ℝ) * density ^ (1.7 : ℝ) := by positivity
  have hl : Real.log (1 + (1 / density) ^ (0.3 : ℝ) * (1 / density) ^ (1.4 : ℝ) * density ^ (1.7 : ℝ)) ≠ 0 :=
    (Real.log_pos (by linarith)).ne'
  rw [div_mul_cancel₀ _ hl, one_div, ← Real.mul_rpow (by positivity) h.le, inv_mul_cancel₀ h.ne', Real.one_rpow, mul_one]

/-- C52: exciton-ion ratio and ion fraction of the ER model: the ratio is not negative, the fraction in (0,1]. -/
theorem C52_er_ratio (density e : ℝ) (hd : 0 ≤ density) (h0 : 0 ≤ e) :
    0 ≤ (excitonIonRatioER density e).1 ∧ 0 < (excitonIonRatioER density e).2 ∧ (excitonIonRatioER density e).2 ≤ 1 := by
  unfold excitonIonRatioER
  have h : 0 ≤ (0.067366 + 0.039693 * density) * e := by positivity
  simp only []
  refine ⟨h, by positivity, ?_⟩
  rw [div_le_one (by linarith)]
  linarith

/-- C52: the ER recombination probability is a probability, below one exactly when electrons are expected, and the expected
electrons are the ions that do not recombine unless the clip at zero acts. -/
theorem C52_er_recombination (ratio nph ne : ℝ) (hr : 0 ≤ ratio) (hph : 0 ≤ nph) (hne : 0 ≤ ne) (hs : 0 < nph + ne) :
    0 ≤ (meanExcitonIonER ratio nph ne).2 ∧ (meanExcitonIonER ratio nph ne).2 ≤ 1
    ∧ ((meanExcitonIonER ratio nph ne).2 < 1 ↔ 0 < ne)
    ∧ ((ratio + 1) * ne ≤ nph + ne → (1 - (meanExcitonIonER ratio nph ne).2) * ((nph + ne) * (1 / (1 + ratio))) = ne) := by
  unfold meanExcitonIonER
  simp only []
  have hf : 0 ≤ ne / (nph + ne) := by positivity
  have hm : 0 ≤ (ratio + 1) * (ne / (nph + ne)) := by positivity
  refine ⟨le_max_right _ _, max_le (by linarith) zero_le_one, ?_, fun hle => ?_⟩
  · rw [max_lt_iff]
    constructor
    · rintro ⟨h, _⟩
      rcases hne.eq_or_lt with he | he
      · subst he
        simp at h
      · exact he
    · intro he
      have : 0 < (ratio + 1) * (ne / (nph + ne)) := by positivity
      exact ⟨by linarith, one_pos⟩
  · have h1 : (ratio + 1) * (ne / (nph + ne)) ≤ 1 := by
      rw [← mul_div_assoc, div_le_one hs]
      exact hle
    rw [max_eq_left (by linarith)]
    have : 1 + ratio ≠ 0 := by linarith
    field_simp
    ring

/-- C52: the Fano factor is the parameter when that is positive, and the density dependent one when it is negative. -/
theorem C52_fano (deltaF density nph ne field : ℝ) :
    (0 < deltaF → fanoFactorER deltaF density nph ne field = deltaF)
    ∧ (deltaF < 0 → fanoFactorER deltaF density nph ne field
        = 0.12707 - 0.029623 * density - 0.0057042 * density ^ 2 + 0.0015957 * density ^ 3 + |deltaF| * √((nph + ne) * field)) := by
  constructor <;> intro h
  · simp only [fanoFactorER, sign_pos h, SignType.coe_one, abs_of_pos h]
    ring
  · simp only [fanoFactorER, sign_neg h, SignType.coe_neg_one]
    ring

/-- C52, a disagreement: at a parameter of zero the Fano factor is neither zero nor the density dependent constant, but half of
that constant. -/
theorem C52_fano_at_zero (density nph ne field : ℝ) :
    fanoFactorER 0 density nph ne field = (0.12707 - 0.029623 * density - 0.0057042 * density ^ 2 + 0.0015957 * density ^ 3) / 2 := by
  simp only [fanoFactorER, sign_zero, SignType.coe_zero, abs_zero]
  ring

/-- A case of the ER statements: 20 photons, 10 electrons. -/
example : (meanExcitonIonER (1 / 10) 20 10).2 = 1 - 11 / 30 := by
  unfold meanExcitonIonER
  simp only []
  rw [max_eq_left] <;> norm_num

/-! ### The first ER model -/

/-- C52: the mean recombination of the first ER model is at least zero and below one. -/
theorem C52_mean_recombination (w nexNi py0 py1 py2 py3 py4 energy field : ℝ) (hw : 0 < w) (hn : 0 ≤ nexNi) (h0 : 0 ≤ py0)
    (he : 0 ≤ energy) (hf : 0 ≤ field) :
    0 ≤ mTI w nexNi py0 py1 py2 py3 py4 energy field ∧ mTI w nexNi py0 py1 py2 py3 py4 energy field < 1 := by
  unfold mTI
  simp only []
  have hti : 0 ≤ energy / w / (1 + nexNi) * py0 * Real.exp (-energy / py1) * field ^ py2 / 4 := by
    have := Real.rpow_nonneg hf py2
    positivity
  generalize energy / w / (1 + nexNi) * py0 * Real.exp (-energy / py1) * field ^ py2 / 4 = ti at *
  have hE : 0 < Real.exp (-(energy - py3) / py4) := Real.exp_pos _
  generalize Real.exp (-(energy - py3) / py4) = E at *
  have hfd0 : 0 < 1 / (1 + E) := by positivity
  have hfd1 : 1 / (1 + E) < 1 := by rw [div_lt_one (by linarith)]; linarith
  have hr : 0 ≤ (if ti < 1e-2 then ti / 2 - ti * ti / 3 else 1 - Real.log (1 + ti) / ti)
      ∧ (if ti < 1e-2 then ti / 2 - ti * ti / 3 else 1 - Real.log (1 + ti) / ti) ≤ 1 := by
    split_ifs with h
    · norm_num at h
      constructor <;> nlinarith
    · have hpos : 0 < ti := lt_of_lt_of_le (by norm_num) (not_lt.1 h)
      have hl1 : Real.log (1 + ti) ≤ ti := by
        have := Real.log_le_sub_one_of_pos (show 0 < 1 + ti by linarith)
        linarith
      have hl0 : 0 ≤ Real.log (1 + ti) := Real.log_nonneg (by linarith)
      refine ⟨?_, ?_⟩
      · rw [sub_nonneg, div_le_one hpos]; exact hl1
      · have := div_nonneg hl0 hpos.le
        linarith
  generalize (if ti < 1e-2 then ti / 2 - ti * ti / 3 else 1 - Real.log (1 + ti) / ti) = r at *
  exact ⟨mul_nonneg hr.1 hfd0.le, lt_of_le_of_lt (mul_le_of_le_one_left hfd0.le hr.2) hfd1⟩

theorem expansion (ti : ℝ) (h0 : 0 < ti) (h1 : ti < 1e-2) : |(ti / 2 - ti * ti / 3) - boxRecombination ti| ≤ 2 * ti ^ 3 := by
  have h2 : ti < 1 / 2 := by norm_num at h1; linarith
  have hlog := Real.abs_log_sub_add_sum_range_le (x := -ti) (by rw [abs_neg, abs_of_pos h0]; linarith) 3
  rw [abs_neg, abs_of_pos h0, sub_neg_eq_add] at hlog
  simp only [Finset.sum_range_succ, Finset.sum_range_zero] at hlog
  have hkey : (ti / 2 - ti * ti / 3) - boxRecombination ti = ((-ti) ^ 1 / 1 + (-ti) ^ 2 / 2 + (-ti) ^ 3 / 3 + Real.log (1 + ti)) / ti := by
    unfold boxRecombination
    field_simp
    ring
  rw [hkey, abs_div, abs_of_pos h0, div_le_iff₀ h0]
  have hq : ti ^ (3 + 1) / (1 - ti) ≤ 2 * ti ^ 3 * ti := by
    rw [div_le_iff₀ (by linarith)]
    have h4 : 0 < ti ^ 4 := by positivity
    have h5 : 0 ≤ ti ^ 4 * (1 - 2 * ti) := mul_nonneg h4.le (by linarith)
    have h6 : 2 * ti ^ 3 * ti * (1 - ti) = ti ^ 4 + ti ^ 4 * (1 - 2 * ti) := by ring
    rw [h6]
    change ti ^ 4 ≤ _
    linarith
  refine le_trans (le_of_eq ?_) (hlog.trans hq)
  congr 1
  norm_num

/-- C52: the mean recombination is the Thomas-Imel box recombination times the Fermi-Dirac factor; below a parameter of 0.01 it
is so up to twice the third power of the parameter. -/
theorem C52_box (w nexNi py0 py1 py2 py3 py4 energy field : ℝ) :
    let ti := boxParameter w nexNi py0 py1 py2 energy field
    (1e-2 ≤ ti → mTI w nexNi py0 py1 py2 py3 py4 energy field = boxRecombination ti * fermiDirac py3 py4 energy)
    ∧ (0 < ti → |mTI w nexNi py0 py1 py2 py3 py4 energy field - boxRecombination ti * fermiDirac py3 py4 energy| ≤ 2 * ti ^ 3) := by
  simp only []
  have hti : energy / w / (1 + nexNi) * py0 * Real.exp (-energy / py1) * field ^ py2 / 4
      = boxParameter w nexNi py0 py1 py2 energy field := by
    unfold boxParameter
    rw [div_div]
    ring
  have hm : mTI w nexNi py0 py1 py2 py3 py4 energy field
      = (if boxParameter w nexNi py0 py1 py2 energy field < 1e-2
          then boxParameter w nexNi py0 py1 py2 energy field / 2
            - boxParameter w nexNi py0 py1 py2 energy field * boxParameter w nexNi py0 py1 py2 energy field / 3
          else boxRecombination (boxParameter w nexNi py0 py1 py2 energy field)) * fermiDirac py3 py4 energy := by
    rw [← hti]
    unfold mTI boxRecombination fermiDirac
    simp only []
    congr 4
    rw [neg_div, ← neg_div, neg_sub]
  rw [hm]
  generalize boxParameter w nexNi py0 py1 py2 energy field = ti
  constructor
  · intro h
    rw [if_neg (not_lt.2 h)]
  · intro h0
    have hp : 0 ≤ 2 * ti ^ 3 := by positivity
    split_ifs with h
    · rw [← sub_mul, abs_mul]
      have hf0 : 0 < fermiDirac py3 py4 energy := by unfold fermiDirac; positivity
      have hf1 : fermiDirac py3 py4 energy ≤ 1 := by
        unfold fermiDirac
        have := Real.exp_pos ((py3 - energy) / py4)
        rw [div_le_one (by linarith)]
        linarith
      rw [abs_of_pos hf0]
      calc _ ≤ 2 * ti ^ 3 * 1 := mul_le_mul (expansion ti h0 h) hf1 hf0.le hp
        _ = _ := mul_one _
    · rw [sub_self, abs_zero]
      exact hp

/-- A case of C52: a parameter of 0.25 at one energy, unit work function. -/
example : boxParameter 1 0 1 1 1 1 1 = Real.exp (-1) / 4 ∧ 1e-2 ≤ Real.exp (-1) / 4 := by
  refine ⟨by unfold boxParameter; norm_num, ?_⟩
  have h := Real.exp_neg_one_gt_d9
  norm_num at h ⊢
  linarith

end Verif.Plugins
