/-
Property theorems C51, C52, C70: the laws the formulas of the yield plugins follow, and what clipped values are.
-/
import Verif.Lemmas.Plugins
import Verif.Props.Yields

namespace Verif.Plugins
open Verif

/-- Clipping a finite number between zero and one gives a probability, and leaves probabilities as they are. -/
theorem clip_unit (y : ℝ) : IsProb (clip (.fin y) (.fin 0) (.fin 1)) ∧ (0 ≤ y → y ≤ 1 → clip (.fin y) (.fin 0) (.fin 1) = .fin y) := by
  have e : clip (.fin y) (.fin 0) (.fin 1) = .fin (min (max y 0) 1) := by
    simp only [clip, jmax, jmin, XF.fin_lt_fin]
    by_cases h0 : y < 0
    · rw [if_pos h0, max_eq_right h0.le]
      show (if XF.fin 1 < XF.fin 0 then _ else _) = _
      simp
    · rw [if_neg h0, max_eq_left (not_lt.1 h0)]
      show (if XF.fin 1 < XF.fin y then _ else _) = _
      by_cases h1 : 1 < y
      · rw [if_pos (by simpa using h1), min_eq_right h1.le]
      · rw [if_neg (by simpa using h1), min_eq_left (not_lt.1 h1)]
  refine ⟨⟨_, e, by positivity, min_le_right _ _⟩, fun h0 h1 => ?_⟩
  rw [e, max_eq_left h0, min_eq_left h1]

/-- **C52 (ER recombination).** The recombination fluctuation and the recombination drawn for an event are probabilities for all finite
parameters and draws, and they are the unclipped values where those are probabilities. -/
theorem C52_er_drawn_recombination (rf0 factor z mean std : ℝ) :
    IsProb (recombFluct (.fin rf0) (.fin factor)) ∧
    (0 ≤ rf0 * factor → rf0 * factor ≤ 1 → recombFluct (.fin rf0) (.fin factor) = .fin (rf0 * factor)) ∧
    IsProb (trueRecombER z (.fin mean) (.fin std)) ∧
    (0 ≤ z * std + mean → z * std + mean ≤ 1 → trueRecombER z (.fin mean) (.fin std) = .fin (z * std + mean)) := by
  unfold recombFluct trueRecombER trunc normal
  simp only [XF.fin_mul_fin, XF.fin_add_fin]
  exact ⟨(clip_unit _).1, (clip_unit _).2, (clip_unit _).1, (clip_unit _).2⟩

/-- A case that is not trivial: a recombination of 0.7 with width 0.1 is drawn as 0.9 two widths up, and as 1 four widths up. -/
example : trueRecombER 2 (.fin 0.7) (.fin 0.1) = .fin 0.9 ∧ trueRecombER 4 (.fin 0.7) (.fin 0.1) = .fin 1 := by
  refine ⟨?_, ?_⟩
  · rw [(C52_er_drawn_recombination 0 0 2 0.7 0.1).2.2.2 (by norm_num) (by norm_num)]; norm_num
  · unfold trueRecombER trunc normal
    simp only [XF.fin_mul_fin, XF.fin_add_fin, clip, jmax, jmin, XF.fin_lt_fin]
    rw [if_neg (by norm_num)]
    show (if XF.fin 1 < XF.fin _ then _ else _) = _
    rw [if_pos (by simp only [XF.fin_lt_fin]; norm_num)]

/-- **C52 (NR quanta).** The number of quanta is a power of the energy: `alpha` at one keV, and `c ^ beta` times as many at `c` times the energy. -/
theorem C52_nr_quanta (alpha beta : ℝ) : totalQuanta alpha beta 1 = alpha ∧
    (∀ c e, 0 ≤ c → 0 ≤ e → totalQuanta alpha beta (c * e) = c ^ beta * totalQuanta alpha beta e) ∧
    (0 < alpha → 0 < beta → ∀ e e', 0 ≤ e → e < e' → totalQuanta alpha beta e < totalQuanta alpha beta e') := by
  unfold totalQuanta
  refine ⟨by simp, fun c e hc he => by rw [Real.mul_rpow hc he]; ring, fun ha hb e e' he h => ?_⟩
  exact mul_lt_mul_of_pos_left (Real.rpow_lt_rpow he h hb) ha

/-- **C52 (NR recombination parameter).** The Thomas-Imel box parameter is `gamma` at field one and density 2.9, a power `delta` of the field and
a power 0.3 of the density. -/
theorem C52_nr_box (gamma delta : ℝ) : thomasImelBox gamma delta 2.9 1 = gamma ∧
    (∀ c field density, 0 ≤ c → 0 ≤ field → thomasImelBox gamma delta density (c * field) = c ^ delta * thomasImelBox gamma delta density field) ∧
    (∀ c field density, 0 ≤ c → 0 ≤ density →
      thomasImelBox gamma delta (c * density) field = c ^ (0.3 : ℝ) * thomasImelBox gamma delta density field) := by
  unfold thomasImelBox
  refine ⟨by rw [div_self (by norm_num)]; simp, fun c f d hc hf => by rw [Real.mul_rpow hc hf]; ring, fun c f d hc hd => ?_⟩
  rw [mul_div_assoc, Real.mul_rpow hc (by positivity)]
  ring

/-- **C52 (NR fluctuation).** The fluctuation is largest, `A`, at the electron fraction `xi`, falls with the distance from it alike on both sides,
and is `A / √e` at the distance `om`. -/
theorem C52_nr_fluctuation (A xi om : ℝ) (hA : 0 < A) (ho : 0 < om) : omegaNR A xi om xi = A ∧
    (∀ x y, |x - xi| < |y - xi| → omegaNR A xi om y < omegaNR A xi om x) ∧ (∀ d, omegaNR A xi om (xi - d) = omegaNR A xi om (xi + d)) ∧
    omegaNR A xi om (xi + om) = A / √(Real.exp 1) ∧ ∀ x, 0 < omegaNR A xi om x := by
  unfold omegaNR
  refine ⟨by simp, fun x y h => ?_, fun d => by congr 2; ring, ?_, fun x => by positivity⟩
  · apply mul_lt_mul_of_pos_left _ hA
    rw [Real.exp_lt_exp]
    have h2 : (x - xi) ^ 2 < (y - xi) ^ 2 := sq_lt_sq.2 h
    have h3 : 0 < om ^ 2 := by positivity
    rw [div_lt_div_iff_of_pos_right h3]
    linarith
  · rw [add_sub_cancel_left, mul_div_assoc, div_self (by positivity), ← Real.exp_half, div_eq_mul_inv, ← Real.exp_neg]
    congr 2
    norm_num

/-- A case that is not trivial: the NEST values `A = 0.04`, `xi = 0.5`, `om = 0.2`. -/
example : omegaNR 0.04 0.5 0.2 0.5 = 0.04 ∧ omegaNR 0.04 0.5 0.2 0.7 < omegaNR 0.04 0.5 0.2 0.4 := by
  have h := C52_nr_fluctuation 0.04 0.5 0.2 (by norm_num) (by norm_num)
  exact ⟨h.1, h.2.1 0.4 0.7 (by norm_num)⟩

/-- **C52 (ER mean quanta).** The mean electrons are the charge yield times the energy.  As long as the charge yield does not exceed the inverse
work function, photons and electrons together are the energy over the work function. -/
theorem C52_er_quanta (w qy energy : ℝ) : (meanNphNeER (lyER w qy) qy energy).2 = qy * energy ∧
    (qy ≤ 1 / w → (meanNphNeER (lyER w qy) qy energy).1 + (meanNphNeER (lyER w qy) qy energy).2 = energy / w) := by
  unfold meanNphNeER
  refine ⟨rfl, fun h => ?_⟩
  have h2 := (C52_er_yields w qy).1.2 h
  show lyER w qy * energy + qy * energy = energy / w
  rw [← add_mul, h2]
  ring

/-- A case that is not trivial: 13.7 eV per quantum, forty electrons per keV, ten keV. -/
example : (meanNphNeER (lyER 0.0137 40) 40 10).2 = 400 ∧
    (meanNphNeER (lyER 0.0137 40) 40 10).1 + (meanNphNeER (lyER 0.0137 40) 40 10).2 = 10 / 0.0137 := by
  have h := C52_er_quanta 0.0137 40 10
  exact ⟨by rw [h.1]; norm_num, h.2 (by norm_num)⟩

/-- **C51 (bands).** Band components keep every event: their energy clip has efficiency one. -/
theorem C51_band : bandEnergiesClipEff = .fin 1 ∧ IsProb bandEnergiesClipEff := ⟨rfl, 1, rfl, by norm_num, le_rfl⟩

/-- **C70 (mono-energetic).** The energy drawn for a mono-energetic component is the draw of the two-half-normal if that is not negative, else
zero. -/
theorem C70_mono (e : ℝ) : monoEnergies (.fin e) = .fin (max e 0) := by
  rw [monoEnergies, clip, jmin_pinf]
  simp only [jmax, XF.fin_lt_fin]
  by_cases h : e < 0
  · rw [if_pos h, max_eq_right h.le]
  · rw [if_neg h, max_eq_left (not_lt.1 h)]

/-- A case that is not trivial: a draw below zero and one above. -/
example : monoEnergies (.fin (-1)) = .fin 0 ∧ monoEnergies (.fin 2.8) = .fin 2.8 := by
  refine ⟨?_, ?_⟩ <;> rw [C70_mono] <;> norm_num

end Verif.Plugins
