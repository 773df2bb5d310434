/-
Property theorems C132: the numbers drawn spread as widely as their variances ask for, and not less.
-/
import Verif.Lemmas.SpreadLow
import Verif.Props.RoundedCounts

namespace Verif.Plugins
open Verif MeasureTheory ProbabilityTheory Randgen

/-- **C132 (electronic recoil).** The number of quanta of an energy deposit spreads about the energy over the work function by the square root of
the Fano factor times this mean, up to half a quantum and twice the Fano factor. -/
theorem C132_quanta (r : Rounding) (hr : Nearest r) (big : Nat) (w fano energy : ℝ) (hw : 0 < w) (hf : 0 ≤ fano) (he : 0 < energy) :
    |√(∫ z, ((quanta r big z (.fin w) (.fin fano) (.fin energy) : ℝ) - energy / w) ^ 2 ∂(gaussianReal 0 1)) - √(fano * (energy / w))|
      ≤ 1 / 2 + 2 * fano := by
  have hm : 0 < energy / w := by positivity
  have e : ∀ z, quanta r big z (.fin w) (.fin fano) (.fin energy) = r.fn (max (z * √(fano * (energy / w)) + energy / w) 0) := by
    intro z
    simp only [quanta, XF.fin_div_fin_of_ne _ hw.ne', XF.fin_mul_fin, mul_comm (energy / w) fano]
    rw [roundInt_low r big z _ (mul_nonneg hf hm.le)]
  simp only [e]
  exact low_spread r hr hm hf

/-- A deposit of 10 keV at a work function of 13.7 eV with Fano factor 0.06: the quanta spread by at least 5, where 6.6 is asked for. -/
example (r : Rounding) (hr : Nearest r) (big : Nat) :
    5 ≤ √(∫ z, ((quanta r big z (.fin (137 / 10000)) (.fin (6 / 100)) (.fin 10) : ℝ) - 10 / (137 / 10000)) ^ 2 ∂(gaussianReal 0 1)) := by
  have h := (abs_le.1 (C132_quanta r hr big (137 / 10000) (6 / 100) 10 (by norm_num) (by norm_num) (by norm_num))).1
  have hs : (13 / 2 : ℝ) ≤ √(6 / 100 * (10 / (137 / 10000))) := Real.le_sqrt_of_sq_le (by norm_num)
  linarith

/-- **C132 (nuclear recoil, ions and excitons).** The same for the ions and for the excitons of a nuclear recoil, each with its Fano factor. -/
theorem C132_ions_NR (r : Rounding) (hr : Nearest r) (big : Nat) (fanoNi fanoNex nph ne ratio alf : ℝ) (hi : 0 ≤ fanoNi) (hx : 0 ≤ fanoNex)
    (hm : 0 < nph + ne) (hra : 0 < ratio) (ha : 0 < alf) :
    let out : ℝ × ℝ → ℤ × ℤ × ℤ := fun p => trueExcitonIonNR r big p.1 p.2 (.fin fanoNi) (.fin fanoNex) (.fin nph) (.fin ne) (.fin ratio) (.fin alf)
    |√(∫ p, (((out p).1 : ℝ) - (nph + ne) * alf) ^ 2 ∂(N.prod N)) - √(fanoNi * ((nph + ne) * alf))| ≤ 1 / 2 + 2 * fanoNi ∧
    |√(∫ p, (((out p).2.1 : ℝ) - (nph + ne) * ratio * alf) ^ 2 ∂(N.prod N)) - √(fanoNex * ((nph + ne) * ratio * alf))| ≤ 1 / 2 + 2 * fanoNex := by
  intro out
  have a0 : 0 < (nph + ne) * alf := by positivity
  have b0 : 0 < (nph + ne) * ratio * alf := by positivity
  have o1 : ∀ p, (out p).1 = r.fn (max (p.1 * √(fanoNi * ((nph + ne) * alf)) + (nph + ne) * alf) 0) := by
    intro p
    have := roundInt_low r big p.1 ((nph + ne) * alf) (mul_nonneg hi a0.le)
    simp only [out, trueExcitonIonNR, XF.fin_mul_fin, XF.fin_add_fin]
    rw [← this]
    simp only [mul_assoc]
  have o2 : ∀ p, (out p).2.1 = r.fn (max (p.2 * √(fanoNex * ((nph + ne) * ratio * alf)) + (nph + ne) * ratio * alf) 0) := by
    intro p
    have := roundInt_low r big p.2 ((nph + ne) * ratio * alf) (mul_nonneg hx b0.le)
    simp only [out, trueExcitonIonNR, XF.fin_mul_fin, XF.fin_add_fin]
    rw [← this]
    simp only [mul_assoc]
  simp only [o1, o2]
  constructor
  · have s1 := integral_fun_fst (μ := N) (ν := N)
      (fun z => (((r.fn (max (z * √(fanoNi * ((nph + ne) * alf)) + (nph + ne) * alf) 0) : ℤ) : ℝ) - (nph + ne) * alf) ^ 2)
    rw [s1]
    simpa using low_spread r hr a0 hi
  · have s2 := integral_fun_snd (μ := N) (ν := N)
      (fun z => (((r.fn (max (z * √(fanoNex * ((nph + ne) * ratio * alf)) + (nph + ne) * ratio * alf) 0) : ℤ) : ℝ) - (nph + ne) * ratio * alf) ^ 2)
    rw [s2]
    simpa using low_spread r hr b0 hx

/-- **C132 (NEST electronic recoil, quanta).** The same for the quanta of an electronic recoil with mean yields, whatever sampler splits them. -/
theorem C132_quanta_ER (b : Binomial) (r : Rounding) (hr : Nearest r) (big : Nat) (nph ne fano alf : ℝ) (hm : 0 < nph + ne) (hf : 0 ≤ fano) :
    |√(∫ z, (((trueExcitonIonER r big b z (.fin nph) (.fin ne) (.fin fano) (.fin alf)).2.2 : ℝ) - (nph + ne)) ^ 2 ∂(gaussianReal 0 1))
      - √(fano * (nph + ne))| ≤ 1 / 2 + 2 * fano := by
  have e : ∀ z, (trueExcitonIonER r big b z (.fin nph) (.fin ne) (.fin fano) (.fin alf)).2.2 = r.fn (max (z * √(fano * (nph + ne)) + (nph + ne)) 0) := by
    intro z
    have h := roundInt_both r big z (nph + ne) (mul_nonneg hf hm.le)
    simp only [trueExcitonIonER, XF.fin_mul_fin, XF.fin_add_fin, h]
  simp only [e]
  exact low_spread r hr hm hf

/-- **C132 (nuclear recoil, electrons of given ions).** The electrons left of `ni` ions spread about their mean by the square root of the variance
asked for, up to half an electron and twice the variance over the distance from the mean to the nearer of no electron and all electrons. -/
theorem C132_electrons_NR (r : Rounding) (hr : Nearest r) (big : Nat) (alpha2 omega recombProb : ℝ) (ni nex nq : ℤ) (h0 : 0 < recombProb)
    (h1 : recombProb < 1) (hn : 0 < ni) :
    let num : ℝ × ℝ → ℝ := fun p => ((truePhotonElectronNR r big p.1 p.2 alpha2 (.fin recombProb) (.fin (variance omega recombProb ni)) ni nex nq).2 : ℤ)
    |√(∫ p, (num p - (1 - recombProb) * ni) ^ 2 ∂(N.prod N)) - √(variance omega recombProb ni)|
      ≤ 1 / 2 + 2 * variance omega recombProb ni / (min recombProb (1 - recombProb) * ni) := by
  intro num
  have hn' : (0 : ℝ) < ni := by exact_mod_cast hn
  have hq : 0 < 1 - recombProb := by linarith
  have hv : 0 ≤ variance omega recombProb ni := by
    unfold variance
    have : 0 ≤ omega * omega := mul_self_nonneg _
    positivity
  obtain ⟨k, loc, d1, d2, d3⟩ := electronDraw_line alpha2 recombProb hv ni
  obtain ⟨-, -, m3⟩ := skew_line_moments alpha2 k loc
  obtain ⟨f1, f2⟩ := skew_line_four alpha2 k loc
  rw [d2] at m3 f2
  rw [d3] at m3 f2
  have e : num = fun p => ((clipInt (r.fn ((fun p : ℝ × ℝ => k * (alpha2 * |p.1| + p.2) + loc) p)) 0 ni : ℤ) : ℝ) := by
    funext p
    simp only [num, truePhotonElectronNR, d1]
    rfl
  rw [e]
  have h := both_spread (P := N.prod N) r hr (by fun_prop) f1 hn hq (by linarith) m3 f2
  rwa [show min (1 - recombProb) (1 - (1 - recombProb)) = min recombProb (1 - recombProb) by rw [sub_sub_cancel, min_comm]] at h

/-- **C132 (NEST electronic recoil, electrons of given ions).** The same for electronic recoils, where the draw is not skewed. -/
theorem C132_electrons_ER (r : Rounding) (hr : Nearest r) (big : Nat) (omega recombProb : ℝ) (ni nq : ℤ) (h0 : 0 < recombProb)
    (h1 : recombProb < 1) (hn : 0 < ni) :
    let num : ℝ → ℝ := fun z => ((truePhotonElectronER r big z (.fin recombProb) (.fin (variance omega recombProb ni)) ni nq).2 : ℤ)
    |√(∫ z, (num z - (1 - recombProb) * ni) ^ 2 ∂N) - √(variance omega recombProb ni)|
      ≤ 1 / 2 + 2 * variance omega recombProb ni / (min recombProb (1 - recombProb) * ni) := by
  intro num
  have hn' : (0 : ℝ) < ni := by exact_mod_cast hn
  have hq : 0 < 1 - recombProb := by linarith
  have hv : 0 ≤ variance omega recombProb ni := by
    unfold variance
    have : 0 ≤ omega * omega := mul_self_nonneg _
    positivity
  obtain ⟨-, -, m3⟩ := line_moments ((1 - recombProb) * ni) (√(variance omega recombProb ni))
  obtain ⟨f1, f2⟩ := line_four ((1 - recombProb) * ni) (√(variance omega recombProb ni))
  rw [Real.sq_sqrt hv] at m3
  rw [show (√(variance omega recombProb ni)) ^ 4 = ((√(variance omega recombProb ni)) ^ 2) ^ 2 by ring, Real.sq_sqrt hv] at f2
  have e : num = fun z => ((clipInt (r.fn ((fun z : ℝ => z * √(variance omega recombProb ni) + (1 - recombProb) * ni) z)) 0 ni : ℤ) : ℝ) := by
    funext z
    simp only [num, truePhotonElectronER, normal, xsqrt_fin hv, XF.fin_mul_fin, XF.fin_sub_fin, XF.fin_add_fin]
    rfl
  rw [e]
  have f3 : ∫ z, ((fun z : ℝ => z * √(variance omega recombProb ni) + (1 - recombProb) * ni) z - (1 - recombProb) * ni) ^ 4 ∂N
      ≤ 4 * (variance omega recombProb ni) ^ 2 := by
    refine (le_of_eq f2).trans ?_
    nlinarith [sq_nonneg (variance omega recombProb ni)]
  have h := both_spread (P := N) r hr (by fun_prop) f1 hn hq (by linarith) m3 f3
  rwa [show min (1 - recombProb) (1 - (1 - recombProb)) = min recombProb (1 - recombProb) by rw [sub_sub_cancel, min_comm]] at h

/-- A thousand ions of which 40 % recombine, with omega 0.05: the electrons spread by at least 37, where 52.3 is asked for. -/
example (r : Rounding) (hr : Nearest r) (big : Nat) :
    let num : ℝ × ℝ → ℝ := fun p => ((truePhotonElectronNR r big p.1 p.2 2 (.fin (4 / 10)) (.fin (variance (5 / 100) (4 / 10) (1000 : ℤ))) 1000 100 1100).2 : ℤ)
    37 ≤ √(∫ p, (num p - (1 - 4 / 10) * (1000 : ℤ)) ^ 2 ∂(N.prod N)) := by
  intro num
  have h := C132_electrons_NR r hr big 2 (5 / 100) (4 / 10) 1000 100 1100 (by norm_num) (by norm_num) (by norm_num)
  have hv : variance (5 / 100) (4 / 10) (1000 : ℤ) = 2740 := by
    unfold variance
    norm_num
  have hm : min (4 / 10 : ℝ) (1 - 4 / 10) = 4 / 10 := by norm_num
  simp only [num]
  simp only [hv, hm] at h ⊢
  have hs : 52 ≤ √(2740 : ℝ) := Real.le_sqrt_of_sq_le (by norm_num)
  have h2 := (abs_le.1 h).1
  have hb : (1 : ℝ) / 2 + 2 * 2740 / (4 / 10 * ((1000 : ℤ) : ℝ)) ≤ 15 := by norm_num
  linarith

end Verif.Plugins
