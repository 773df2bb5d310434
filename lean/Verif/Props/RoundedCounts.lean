/-
Property theorems C123: rounding and cutting keep the mean number of quanta.
-/
import Verif.Lemmas.RoundedCounts
import Verif.Props.Yields

namespace Verif.Plugins
open Verif MeasureTheory ProbabilityTheory

/-- Rounding to a nearest integer. -/
def Nearest (r : Rounding) : Prop := ∀ y, |(r.fn y : ℝ) - y| ≤ 1 / 2

/-- **C123 (electronic recoil).** The mean number of quanta of an energy deposit is the energy over the work function up to half a quantum and a
quarter of the Fano factor, and the number spreads about it by at most half a quantum more than the Fano factor asks for. -/
theorem C123_quanta (r : Rounding) (hr : Nearest r) (big : Nat) (w fano energy : ℝ) (hw : 0 < w) (hf : 0 ≤ fano) (he : 0 ≤ energy) :
    let num : ℝ → ℝ := fun z => (quanta r big z (.fin w) (.fin fano) (.fin energy) : ℤ)
    |∫ z, num z ∂(gaussianReal 0 1) - energy / w| ≤ 1 / 2 + fano / 4 ∧
    ∫ z, (num z - energy / w) ^ 2 ∂(gaussianReal 0 1) ≤ (√(fano * (energy / w)) + 1 / 2) ^ 2 := by
  intro num
  have hm : 0 ≤ energy / w := by positivity
  have e : num = fun z => ((r.fn (max (z * √(fano * (energy / w)) + energy / w) 0) : ℤ) : ℝ) := by
    funext z
    simp only [num, quanta, XF.fin_div_fin_of_ne _ hw.ne', XF.fin_mul_fin, mul_comm (energy / w) fano]
    rw [roundInt_low r big z _ (mul_nonneg hf hm)]
  rw [e]
  exact (fano_count r hr hm hf).2

/-- **C123 (small deposits).** Below a tenth of a work function, with Fano factors up to six percent, more than three fifths of the quanta are
lost on average: most draws round to zero and are not made up for. -/
theorem C123_small_deposits (r : Rounding) (hr : Nearest r) (big : Nat) (w fano energy : ℝ) (hw : 0 < w) (hf : 0 ≤ fano) (hf1 : fano ≤ 6 / 100)
    (he : 0 < energy) (hs : energy / w ≤ 1 / 10) :
    ∫ z, (quanta r big z (.fin w) (.fin fano) (.fin energy) : ℝ) ∂(gaussianReal 0 1) ≤ 2 / 5 * (energy / w) := by
  have hm : 0 < energy / w := by positivity
  have e : (fun z => (quanta r big z (.fin w) (.fin fano) (.fin energy) : ℝ)) =
      fun z => ((r.fn (max (z * √(fano * (energy / w)) + energy / w) 0) : ℤ) : ℝ) := by
    funext z
    simp only [quanta, XF.fin_div_fin_of_ne _ hw.ne', XF.fin_mul_fin, mul_comm (energy / w) fano]
    rw [roundInt_low r big z _ (mul_nonneg hf hm.le)]
  rw [e]
  generalize energy / w = m at *
  obtain ⟨h1, -, h3⟩ := line_moments m (√(fano * m))
  rw [Real.sq_sqrt (mul_nonneg hf hm.le)] at h3
  have hD : MemLp (fun z => z * √(fano * m) + m - m) 2 (gaussianReal 0 1) := h1.sub (memLp_const m)
  have hle : ∀ x : ℝ, ((r.fn (max x 0) : ℤ) : ℝ) ≤ (x - m) ^ 2 * (25 / 4) := by
    intro x
    have hpos : 0 ≤ (x - m) ^ 2 * (25 / 4) := by positivity
    rcases le_or_gt (r.fn (max x 0)) 0 with c | c
    · have : ((r.fn (max x 0) : ℤ) : ℝ) ≤ 0 := by exact_mod_cast c
      linarith
    · have c1 : (1 : ℝ) ≤ r.fn (max x 0) := by exact_mod_cast c
      have h := abs_le.1 (hr (max x 0))
      have hx : 1 / 2 ≤ max x 0 := by linarith [h.2]
      have hx2 : max x 0 = x := by
        rcases max_choice x 0 with d | d
        · exact d
        · rw [d] at hx
          norm_num at hx
      rw [hx2] at h hx ⊢
      nlinarith [h.2]
  calc _ ≤ ∫ z, (z * √(fano * m) + m - m) ^ 2 * (25 / 4) ∂(gaussianReal 0 1) :=
        integral_mono (low_count r hr hm (mul_nonneg hf hm.le)).1 (hD.integrable_sq.mul_const _) (fun z => hle _)
    _ = fano * m * (25 / 4) := by rw [integral_mul_const, h3]
    _ ≤ _ := by nlinarith

/-- **C123 (nuclear recoil, ions and excitons).** With the means `mean alf` and `mean ratio alf` the numbers of ions and excitons of a nuclear recoil
have these means up to half a particle and a quarter of their Fano factors. -/
theorem C123_ions_NR (r : Rounding) (hr : Nearest r) (big : Nat) (fanoNi fanoNex nph ne ratio alf : ℝ) (hi : 0 ≤ fanoNi) (hx : 0 ≤ fanoNex)
    (hm : 0 ≤ nph + ne) (hra : 0 ≤ ratio) (ha : 0 ≤ alf) :
    let out : ℝ × ℝ → ℤ × ℤ × ℤ := fun p => trueExcitonIonNR r big p.1 p.2 (.fin fanoNi) (.fin fanoNex) (.fin nph) (.fin ne) (.fin ratio) (.fin alf)
    |∫ p, ((out p).1 : ℝ) ∂(N.prod N) - (nph + ne) * alf| ≤ 1 / 2 + fanoNi / 4 ∧
    |∫ p, ((out p).2.1 : ℝ) ∂(N.prod N) - (nph + ne) * ratio * alf| ≤ 1 / 2 + fanoNex / 4 ∧
    |∫ p, ((out p).2.2 : ℝ) ∂(N.prod N) - (nph + ne) * (1 + ratio) * alf| ≤ 1 + (fanoNi + fanoNex) / 4 := by
  intro out
  have a0 : 0 ≤ (nph + ne) * alf := by positivity
  have b0 : 0 ≤ (nph + ne) * ratio * alf := by positivity
  obtain ⟨i1, e1, -⟩ := fano_count r hr a0 hi
  obtain ⟨i2, e2, -⟩ := fano_count r hr b0 hx
  set F := fun z => ((r.fn (max (z * √(fanoNi * ((nph + ne) * alf)) + (nph + ne) * alf) 0) : ℤ) : ℝ)
  set G := fun z => ((r.fn (max (z * √(fanoNex * ((nph + ne) * ratio * alf)) + (nph + ne) * ratio * alf) 0) : ℤ) : ℝ)
  have o1 : ∀ p, ((out p).1 : ℝ) = F p.1 := by
    intro p
    have := roundInt_low r big p.1 ((nph + ne) * alf) (mul_nonneg hi a0)
    simp only [out, F, trueExcitonIonNR, XF.fin_mul_fin, XF.fin_add_fin]
    rw [← this]
    simp only [mul_assoc]
  have o2 : ∀ p, ((out p).2.1 : ℝ) = G p.2 := by
    intro p
    have := roundInt_low r big p.2 ((nph + ne) * ratio * alf) (mul_nonneg hx b0)
    simp only [out, G, trueExcitonIonNR, XF.fin_mul_fin, XF.fin_add_fin]
    rw [← this]
    simp only [mul_assoc]
  have o3 : ∀ p, ((out p).2.2 : ℝ) = G p.2 + F p.1 := by
    intro p
    rw [← o1, ← o2]
    simp only [out, trueExcitonIonNR]
    push_cast
    rfl
  have j1 : Integrable (fun p : ℝ × ℝ => F p.1) (N.prod N) := i1.comp_fst N
  have j2 : Integrable (fun p : ℝ × ℝ => G p.2) (N.prod N) := i2.comp_snd N
  have s1 : ∫ p : ℝ × ℝ, F p.1 ∂(N.prod N) = ∫ z, F z ∂N := by simpa using integral_fun_fst (μ := N) (ν := N) F
  have s2 : ∫ p : ℝ × ℝ, G p.2 ∂(N.prod N) = ∫ z, G z ∂N := by simpa using integral_fun_snd (μ := N) (ν := N) G
  simp only [o1, o2, o3]
  rw [integral_add j2 j1, s1, s2]
  refine ⟨e1, e2, ?_⟩
  have e : ∫ z, G z ∂N + ∫ z, F z ∂N - (nph + ne) * (1 + ratio) * alf
      = (∫ z, G z ∂N - (nph + ne) * ratio * alf) + (∫ z, F z ∂N - (nph + ne) * alf) := by ring
  rw [e]
  refine (abs_add_le _ _).trans ?_
  linarith

/-- **C123 (nuclear recoil, electrons of given ions).** Of `ni` ions a nuclear recoil keeps on average the fraction that does not recombine, up to
three quarters of an electron and the part of the variance that is not binomial, and the electrons spread about that by at most half an electron
more than the variance asks for. -/
theorem C123_electrons_NR (r : Rounding) (hr : Nearest r) (big : Nat) (alpha2 omega recombProb : ℝ) (ni nex nq : ℤ) (h0 : 0 < recombProb)
    (h1 : recombProb < 1) (hn : 0 < ni) :
    let num : ℝ × ℝ → ℝ := fun p => ((truePhotonElectronNR r big p.1 p.2 alpha2 (.fin recombProb) (.fin (variance omega recombProb ni)) ni nex nq).2 : ℤ)
    |∫ p, num p ∂(N.prod N) - (1 - recombProb) * ni| ≤ 3 / 4 + omega ^ 2 * ni / (4 * (recombProb * (1 - recombProb))) ∧
    ∫ p, (num p - (1 - recombProb) * ni) ^ 2 ∂(N.prod N) ≤ (√(variance omega recombProb ni) + 1 / 2) ^ 2 := by
  intro num
  have hn' : (0 : ℝ) < ni := by exact_mod_cast hn
  have hq : 0 < 1 - recombProb := by linarith
  have hv : 0 ≤ variance omega recombProb ni := by
    unfold variance
    have : 0 ≤ omega * omega := mul_self_nonneg _
    positivity
  obtain ⟨k, loc, d1, d2, d3⟩ := electronDraw_line alpha2 recombProb hv ni
  obtain ⟨m1, m2, m3⟩ := skew_line_moments alpha2 k loc
  rw [d2] at m2 m3
  rw [d3] at m3
  have e : num = fun p => ((clipInt (r.fn ((fun p : ℝ × ℝ => k * (alpha2 * |p.1| + p.2) + loc) p)) 0 ni : ℤ) : ℝ) := by
    funext p
    simp only [num, truePhotonElectronNR, d1]
    rfl
  rw [e]
  obtain ⟨-, b1, b2⟩ := both_count r hr (by fun_prop) m1 hn hq (by linarith) m2 m3
  refine ⟨b1.trans (le_of_eq ?_), b2⟩
  unfold variance
  have : (1 - (1 - recombProb)) = recombProb := by ring
  rw [this]
  field_simp
  ring

/-- **C123 (NEST electronic recoil, electrons of given ions).** The same for electronic recoils, where the draw is not skewed. -/
theorem C123_electrons_ER (r : Rounding) (hr : Nearest r) (big : Nat) (omega recombProb : ℝ) (ni nq : ℤ) (h0 : 0 < recombProb)
    (h1 : recombProb < 1) (hn : 0 < ni) :
    let num : ℝ → ℝ := fun z => ((truePhotonElectronER r big z (.fin recombProb) (.fin (variance omega recombProb ni)) ni nq).2 : ℤ)
    |∫ z, num z ∂N - (1 - recombProb) * ni| ≤ 3 / 4 + omega ^ 2 * ni / (4 * (recombProb * (1 - recombProb))) ∧
    ∫ z, (num z - (1 - recombProb) * ni) ^ 2 ∂N ≤ (√(variance omega recombProb ni) + 1 / 2) ^ 2 := by
  intro num
  have hn' : (0 : ℝ) < ni := by exact_mod_cast hn
  have hq : 0 < 1 - recombProb := by linarith
  have hv : 0 ≤ variance omega recombProb ni := by
    unfold variance
    have : 0 ≤ omega * omega := mul_self_nonneg _
    positivity
  obtain ⟨m1, m2, m3⟩ := line_moments ((1 - recombProb) * ni) (√(variance omega recombProb ni))
  rw [Real.sq_sqrt hv] at m3
  have e : num = fun z => ((clipInt (r.fn ((fun z : ℝ => z * √(variance omega recombProb ni) + (1 - recombProb) * ni) z)) 0 ni : ℤ) : ℝ) := by
    funext z
    simp only [num, truePhotonElectronER, normal, xsqrt_fin hv, XF.fin_mul_fin, XF.fin_sub_fin, XF.fin_add_fin]
    rfl
  rw [e]
  obtain ⟨-, b1, b2⟩ := both_count r hr (by fun_prop) m1 hn hq (by linarith) m2 m3
  refine ⟨b1.trans (le_of_eq ?_), b2⟩
  unfold variance
  have : (1 - (1 - recombProb)) = recombProb := by ring
  rw [this]
  field_simp
  ring

/-- **C123 (NEST electronic recoil, quanta).** The numbers of quanta, ions and excitons of an electronic recoil have the means the yields ask for, up to
half a quantum and a quarter of the Fano factor, whatever sampler with the right means splits the quanta. -/
theorem C123_quanta_ER {Ω : Type} [MeasurableSpace Ω] (P : Measure Ω) [IsProbabilityMeasure P] (b : Ω → Binomial) (r : Rounding) (hr : Nearest r)
    (big : Nat) (nph ne fano alf : ℝ) (hm : 0 ≤ nph + ne) (hf : 0 ≤ fano) (a0 : 0 ≤ alf) (a1 : alf ≤ 1)
    (hb : ∀ ω (n : ℤ), 0 ≤ n → 0 ≤ b ω (.fin alf) n ∧ b ω (.fin alf) n ≤ n)
    (fair : ∀ n : ℤ, 0 ≤ n → ∫ ω, (b ω (.fin alf) n : ℝ) ∂P = alf * n) (hbm : ∀ n : ℤ, Measurable (fun ω => b ω (.fin alf) n)) :
    let out : ℝ → Ω → ℤ × ℤ × ℤ := fun z ω => trueExcitonIonER r big (b ω) z (.fin nph) (.fin ne) (.fin fano) (.fin alf)
    |∫ z, ∫ ω, ((out z ω).2.2 : ℝ) ∂P ∂N - (nph + ne)| ≤ 1 / 2 + fano / 4 ∧
    |∫ z, ∫ ω, ((out z ω).1 : ℝ) ∂P ∂N - (nph + ne) * alf| ≤ (1 / 2 + fano / 4) * alf ∧
    |∫ z, ∫ ω, ((out z ω).2.1 : ℝ) ∂P ∂N - (nph + ne) * (1 - alf)| ≤ (1 / 2 + fano / 4) * (1 - alf) := by
  intro out
  obtain ⟨-, e1, -⟩ := fano_count r hr hm hf
  set F := fun z => r.fn (max (z * √(fano * (nph + ne)) + (nph + ne)) 0)
  have hF : ∀ z, 0 ≤ F z := fun z => r.nonneg (le_max_right _ _)
  have hq : ∀ z ω, out z ω = (b ω (.fin alf) (F z), F z - b ω (.fin alf) (F z), F z) := by
    intro z ω
    have h := roundInt_both r big z (nph + ne) (mul_nonneg hf hm)
    have hk := hb ω (F z) (hF z)
    simp only [out, trueExcitonIonER, XF.fin_mul_fin, XF.fin_add_fin, h]
    have c1 : clipInt (b ω (.fin alf) (F z)) 0 (F z) = b ω (.fin alf) (F z) := by
      unfold clipInt
      omega
    have c2 : clipInt (F z - b ω (.fin alf) (F z)) 0 (F z) = F z - b ω (.fin alf) (F z) := by
      unfold clipInt
      omega
    exact Prod.ext c1 (Prod.ext c2 rfl)
  have hint : ∀ z, Integrable (fun ω => ((b ω (.fin alf) (F z) : ℤ) : ℝ)) P := by
    intro z
    refine Integrable.of_bound (C := (F z : ℝ))
      ((measurable_of_countable (fun k : ℤ => (k : ℝ))).comp (hbm (F z))).aestronglyMeasurable (Filter.Eventually.of_forall (fun ω => ?_))
    have := hb ω (F z) (hF z)
    rw [Real.norm_eq_abs, abs_of_nonneg (by exact_mod_cast this.1)]
    exact_mod_cast this.2
  have i2 : ∀ z, ∫ ω, ((F z - b ω (.fin alf) (F z) : ℤ) : ℝ) ∂P = (1 - alf) * F z := by
    intro z
    push_cast
    rw [integral_sub (integrable_const _) (hint z), fair _ (hF z)]
    simp
    ring
  simp only [hq, fair _ (hF _), i2, integral_const_mul, integral_const, probReal_univ, one_smul]
  refine ⟨e1, ?_, ?_⟩
  · have : alf * ∫ z, (F z : ℝ) ∂N - (nph + ne) * alf = (∫ z, (F z : ℝ) ∂N - (nph + ne)) * alf := by ring
    rw [this, abs_mul, abs_of_nonneg a0]
    exact mul_le_mul_of_nonneg_right e1 a0
  · have : (1 - alf) * ∫ z, (F z : ℝ) ∂N - (nph + ne) * (1 - alf) = (∫ z, (F z : ℝ) ∂N - (nph + ne)) * (1 - alf) := by ring
    rw [this, abs_mul, abs_of_nonneg (by linarith : 0 ≤ 1 - alf)]
    exact mul_le_mul_of_nonneg_right e1 (by linarith)

theorem recombination_strict (ti nph ne : ℝ) (hti : 0 < ti) (hph : 0 ≤ nph) (hel : 0 < ne) (hnex : 0 ≤ (meanExcitonIon ti nph ne).nex) :
    (nph + ne) * (meanExcitonIon ti nph ne).alf = (meanExcitonIon ti nph ne).ni ∧ 0 ≤ (meanExcitonIon ti nph ne).ratio ∧
      0 < (meanExcitonIon ti nph ne).recombProb ∧ (meanExcitonIon ti nph ne).recombProb < 1 := by
  have hq := C52_quanta ti nph ne hti.ne'
  obtain ⟨r0, -, r2, r3⟩ := C52_recombination ti nph ne hti hph hel.le
  have hlt : ne < (meanExcitonIon ti nph ne).ni := by
    have hx : ne * ti / 4 + 1 < Real.exp (ne * ti / 4) := Real.add_one_lt_exp (by positivity)
    unfold meanExcitonIon
    simp only []
    rw [div_mul_eq_mul_div, lt_div_iff₀ hti]
    linarith
  have hni : 0 < (meanExcitonIon ti nph ne).ni := hel.trans hlt
  have hrat : (meanExcitonIon ti nph ne).ratio = (meanExcitonIon ti nph ne).nex / (meanExcitonIon ti nph ne).ni := by
    change (if 0 < (meanExcitonIon ti nph ne).ni then _ else _) = _
    rw [if_pos hni]
    rfl
  have half : (meanExcitonIon ti nph ne).alf = 1 / (1 + (meanExcitonIon ti nph ne).ratio) := rfl
  refine ⟨?_, ?_, ?_, r2.2 hel⟩
  · rw [half, hrat, ← hq]
    field_simp
    ring
  · rw [hrat]
    positivity
  · have h := r3 hel
    by_contra c
    nlinarith

/-- One nuclear recoil with the mean numbers `nph` and `ne` of photons and electrons: the photons and the electrons drawn from the normal numbers
`p` (ions and excitons) and `q` (electrons). -/
noncomputable def recoilNR (r : Rounding) (big : Nat) (fanoNi fanoNex ti nph ne omega alpha2 : ℝ) (p q : ℝ × ℝ) : ℤ × ℤ :=
  let m := meanExcitonIon ti nph ne
  let n := trueExcitonIonNR r big p.1 p.2 (.fin fanoNi) (.fin fanoNex) (.fin nph) (.fin ne) (.fin m.ratio) (.fin m.alf)
  truePhotonElectronNR r big q.1 q.2 alpha2 (.fin m.recombProb) (.fin (variance omega m.recombProb n.1)) n.1 n.2.1 n.2.2

/-- **C123 (nuclear recoil).** Photons and electrons of a nuclear recoil together have the mean number the yields ask for, up to one quantum and a
quarter of the Fano factors; the electrons have their mean `ne`, up to the rounding of ions and electrons and the part of the variance that is
not binomial. -/
theorem C123_recoil_NR (r : Rounding) (hr : Nearest r) (big : Nat) (fanoNi fanoNex ti nph ne omega alpha2 : ℝ) (hi : 0 ≤ fanoNi) (hx : 0 ≤ fanoNex)
    (hti : 0 < ti) (hph : 0 ≤ nph) (hel : 0 < ne) (hnex : 0 ≤ (meanExcitonIon ti nph ne).nex) :
    let out := recoilNR r big fanoNi fanoNex ti nph ne omega alpha2
    let k := (meanExcitonIon ti nph ne).recombProb
    |∫ p, ∫ q, (((out p q).1 + (out p q).2 : ℤ) : ℝ) ∂(N.prod N) ∂(N.prod N) - (nph + ne)| ≤ 1 + (fanoNi + fanoNex) / 4 ∧
    |∫ p, ∫ q, ((out p q).2 : ℝ) ∂(N.prod N) ∂(N.prod N) - ne|
      ≤ (1 - k) * (1 / 2 + fanoNi / 4) + 3 / 4 + omega ^ 2 / (4 * (k * (1 - k))) * ((meanExcitonIon ti nph ne).ni + 1 / 2 + fanoNi / 4) := by
  intro out k
  obtain ⟨hni, hra, h0, h1⟩ := recombination_strict ti nph ne hti hph hel hnex
  have hm : 0 < nph + ne := by linarith
  rw [← hni]
  set M := meanExcitonIon ti nph ne
  let a := M.alf
  have hk : 0 < 1 - k := by linarith
  have ha : a * (1 + M.ratio) = 1 := by
    have : a = 1 / (1 + M.ratio) := rfl
    rw [this]
    exact div_mul_cancel₀ _ (by positivity)
  have hapos : 0 ≤ a := by
    have : a = 1 / (1 + M.ratio) := rfl
    rw [this]
    positivity
  have hne : (1 - k) * ((nph + ne) * a) = ne := by
    have e1 : k = 1 - (M.ratio + 1) * (ne / (nph + ne)) := by
      have : M.elecFrac = ne / (nph + ne) := by
        show (if 0 < nph + ne then ne / (nph + ne) else 0) = _
        rw [if_pos hm]
      rw [← this]
      rfl
    have e2 : (1 - k) = (1 + M.ratio) * (ne / (nph + ne)) := by rw [e1]; ring
    rw [e2]
    calc _ = (a * (1 + M.ratio)) * (ne / (nph + ne) * (nph + ne)) := by ring
      _ = _ := by rw [ha, one_mul, div_mul_cancel₀ _ hm.ne']
  obtain ⟨c1, -, c3⟩ := C123_ions_NR r hr big fanoNi fanoNex nph ne M.ratio a hi hx hm.le hra hapos
  have hio := fano_count r hr (mul_nonneg hm.le hapos) hi
  set ions : ℝ × ℝ → ℤ × ℤ × ℤ :=
    fun p => trueExcitonIonNR r big p.1 p.2 (.fin fanoNi) (.fin fanoNex) (.fin nph) (.fin ne) (.fin M.ratio) (.fin a) with hions
  have hnn : ∀ p, 0 ≤ (ions p).1 := fun p => roundInt_truncLow _ _ _ _ _
  have hq : ∀ p, (ions p).2.2 = (ions p).2.1 + (ions p).1 := fun p => rfl
  have hout : ∀ p q, out p q = truePhotonElectronNR r big q.1 q.2 alpha2 (.fin k) (.fin (variance omega k (ions p).1)) (ions p).1 (ions p).2.1 (ions p).2.2 :=
    fun p q => rfl
  have hsum : ∀ p q, (out p q).1 + (out p q).2 = (ions p).2.2 := by
    intro p q
    rw [hout, hq]
    have hr := clipInt_range (x := roundInt r big (electronDrawNR q.1 q.2 alpha2 (.fin k) (.fin (variance omega k (ions p).1)) (ions p).1)) (hnn p)
    simp only [truePhotonElectronNR]
    omega
  constructor
  · simp only [hsum, integral_const, probReal_univ, one_smul]
    have e : (nph + ne) * (1 + M.ratio) * a = nph + ne := by
      calc _ = (nph + ne) * (a * (1 + M.ratio)) := by ring
        _ = _ := by rw [ha, mul_one]
    rw [e] at c3
    exact c3
  · let E : ℤ → ℝ := fun n => ∫ q, ((truePhotonElectronNR r big q.1 q.2 alpha2 (.fin k) (.fin (variance omega k n)) n 0 0).2 : ℝ) ∂(N.prod N)
    have hE : ∀ p, ∫ q, ((out p q).2 : ℝ) ∂(N.prod N) = E (ions p).1 := fun p => rfl
    simp only [hE]
    set c := omega ^ 2 / (4 * (k * (1 - k))) with hc
    have hc0 : 0 ≤ c := by positivity
    have hbound : ∀ n : ℤ, 0 ≤ n → |E n - (1 - k) * n| ≤ 3 / 4 + c * n := by
      intro n hn
      rcases hn.eq_or_lt with h | h
      · subst h
        have : E 0 = 0 := by
          simp only [E, truePhotonElectronNR]
          have : ∀ x : ℤ, clipInt x 0 0 = 0 := fun x => by unfold clipInt; omega
          simp only [this]
          simp
        rw [this]
        norm_num
      · refine (C123_electrons_NR r hr big alpha2 omega k n 0 0 h0 h1 h).1.trans (le_of_eq ?_)
        rw [hc]
        ring
    have hmI : Measurable (fun p => (ions p).1) := by
      have : (fun p => (ions p).1) = fun p : ℝ × ℝ => r.fn (max (p.1 * √(fanoNi * ((nph + ne) * a)) + (nph + ne) * a) 0) := by
        funext p
        have := roundInt_low r big p.1 ((nph + ne) * a) (mul_nonneg hi (mul_nonneg hm.le hapos))
        simp only [hions, trueExcitonIonNR, XF.fin_mul_fin, XF.fin_add_fin]
        rw [← this]
        simp only [mul_assoc]
      rw [this]
      exact r.mono.measurable.comp (by fun_prop)
    have hI : Integrable (fun p => ((ions p).1 : ℝ)) (N.prod N) := by
      have j : Integrable (fun p : ℝ × ℝ => ((r.fn (max (p.1 * √(fanoNi * ((nph + ne) * a)) + (nph + ne) * a) 0) : ℤ) : ℝ)) (N.prod N) :=
        hio.1.comp_fst N
      refine j.congr (Filter.Eventually.of_forall (fun p => ?_))
      have := roundInt_low r big p.1 ((nph + ne) * a) (mul_nonneg hi (mul_nonneg hm.le hapos))
      simp only [hions, trueExcitonIonNR, XF.fin_mul_fin, XF.fin_add_fin]
      rw [← this]
      simp only [mul_assoc]
    have hB : Integrable (fun p => 3 / 4 + c * ((ions p).1 : ℝ)) (N.prod N) := (integrable_const _).add (hI.const_mul c)
    have hEm : Measurable (fun p => E (ions p).1 - (1 - k) * ((ions p).1 : ℝ)) :=
      (measurable_of_countable (fun n : ℤ => E n - (1 - k) * (n : ℝ))).comp hmI
    have hd : Integrable (fun p => E (ions p).1 - (1 - k) * ((ions p).1 : ℝ)) (N.prod N) :=
      hB.mono' hEm.aestronglyMeasurable (Filter.Eventually.of_forall (fun p => hbound _ (hnn p)))
    have hEi : Integrable (fun p => E (ions p).1) (N.prod N) := by
      have := hd.add (hI.const_mul (1 - k))
      refine this.congr (Filter.Eventually.of_forall (fun p => ?_))
      simp
    have key : |∫ p, E (ions p).1 ∂(N.prod N) - (1 - k) * ∫ p, ((ions p).1 : ℝ) ∂(N.prod N)|
        ≤ 3 / 4 + c * ∫ p, ((ions p).1 : ℝ) ∂(N.prod N) := by
      rw [← integral_const_mul, ← integral_sub hEi (hI.const_mul _)]
      refine (abs_integral_le_integral_abs).trans ((integral_mono hd.abs hB (fun p => hbound _ (hnn p))).trans (le_of_eq ?_))
      rw [integral_add (integrable_const _) (hI.const_mul c), integral_const_mul]
      simp
    generalize ∫ p, ((ions p).1 : ℝ) ∂(N.prod N) = I at *
    generalize ∫ p, E (ions p).1 ∂(N.prod N) = J at *
    have t1 : |(1 - k) * I - ne| ≤ (1 - k) * (1 / 2 + fanoNi / 4) := by
      have : (1 - k) * I - ne = (1 - k) * (I - (nph + ne) * a) := by rw [mul_sub, hne]
      rw [this, abs_mul, abs_of_pos hk]
      exact mul_le_mul_of_nonneg_left c1 hk.le
    have t2 : I ≤ (nph + ne) * a + 1 / 2 + fanoNi / 4 := by
      have := (abs_le.1 c1).2
      linarith
    have t3 := mul_le_mul_of_nonneg_left t2 hc0
    have t4 := abs_add_le (J - (1 - k) * I) ((1 - k) * I - ne)
    rw [sub_add_sub_cancel] at t4
    linarith

/-- Rounding to the nearest integer, halves up. -/
noncomputable def halfUp : Rounding := ⟨round, fun x y h => by simp only [round_eq]; exact Int.floor_mono (by linarith), round_intCast⟩

/-- The hypotheses of the statements above can be met: a deposit of one keV, and a recoil with twenty photons and four electrons. -/
example : Nearest halfUp ∧ (0 : ℝ) < 13.7 / 1000 ∧ (0 : ℝ) ≤ 0.059 ∧ (0 : ℝ) < 1 ∧ 0 ≤ (meanExcitonIon 1 20 4).nex := by
  refine ⟨fun y => ?_, by norm_num, by norm_num, one_pos, ?_⟩
  · rw [abs_sub_comm]
    exact abs_sub_round y
  · unfold meanExcitonIon
    have h := Real.exp_one_lt_d9
    norm_num at h ⊢
    linarith

/-- A deposit of one thousandth of a keV is a tenth of a quantum at most. -/
example : (0 : ℝ) < 0.001 ∧ 0.001 / 0.0137 ≤ (1 : ℝ) / 10 ∧ (0.059 : ℝ) ≤ 6 / 100 := by norm_num

end Verif.Plugins
