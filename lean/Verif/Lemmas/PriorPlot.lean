/-
Lemmas about the prior curves: densities and the mass inside the allowed range.
-/
import Verif.Model.PriorPlot
import Verif.Props.Parameter
import Verif.Props.Randgen

namespace Verif.Plot
open Verif Parameter MeasureTheory ProbabilityTheory

/-- The value of `_norm_pdf`. -/
noncomputable def normVal (mean std x : ℝ) : ℝ := Real.exp (-(x - mean) ^ 2 / std ^ 2 / 2) / Real.sqrt (2 * Real.pi) / std

theorem normPdf_ok (mean : ℝ) {std : ℝ} (h : std ≠ 0) : normPdf mean std = some ∘ normVal mean std := by
  funext x
  simp only [normPdf, h, if_false, Function.comp, normVal]

theorem normVal_eq_pdf (mean : ℝ) {std : ℝ} (h : 0 < std) : normVal mean std = gaussianPDFReal mean (Randgen.sq std) := by
  funext x
  unfold normVal gaussianPDFReal
  have hsq : √(2 * Real.pi * std ^ 2) = √(2 * Real.pi) * std := by
    rw [Real.sqrt_mul (by positivity), Real.sqrt_sq h.le]
  rw [Randgen.coe_sq, hsq]
  have : -(x - mean) ^ 2 / std ^ 2 / 2 = -(x - mean) ^ 2 / (2 * std ^ 2) := by
    field_simp
  rw [this]
  field_simp

theorem thnPdf_ok {sig : Solver} {mu ep en a b : ℝ} (h : sig (ep, en) = some (a, b)) (ha : 0 < a) (hb : 0 < b) :
    thnPdf sig mu ep en = .ok (some ∘ fun x => Real.exp (Randgen.ell mu a b x)) := by
  simp only [thnPdf, h, ha, hb, and_self, if_true]
  congr 1
  funext x
  simp only [Randgen.thnLogpdf_ok mu a b x ha hb, Function.comp]

theorem thn_integral (mu : ℝ) {a b : ℝ} (ha : 0 < a) (hb : 0 < b) : ∫ x, Real.exp (Randgen.ell mu a b x) = 1 := by
  obtain ⟨l, h1, _, _, h2⟩ := Randgen.C48_density mu a b ha hb
  have : l = Randgen.ell mu a b := by
    funext x
    have := h1 x
    rw [Randgen.thnLogpdf_ok mu a b x ha hb] at this
    exact (Except.ok.inj this).symm
  rw [← this, h2]

/-- A positive continuous density has mass strictly between 0 and 1 in every interval. -/
theorem mass_lt_one {f : ℝ → ℝ} (hc : Continuous f) (hp : ∀ x, 0 < f x) (h1 : ∫ x, f x = 1) (lo hi : ℝ) :
    ∫ x in Set.Icc lo hi, f x < 1 := by
  have hint : Integrable f := by
    by_contra h
    rw [integral_undef h] at h1
    norm_num at h1
  have hsplit := integral_add_compl (s := Set.Icc lo hi) measurableSet_Icc hint
  have hpos : 0 < ∫ x in (Set.Icc lo hi)ᶜ, f x := by
    rw [setIntegral_pos_iff_support_of_nonneg_ae (Filter.Eventually.of_forall fun x => (hp x).le) hint.integrableOn]
    have hs : Function.support f = Set.univ := by
      ext x
      simp [(hp x).ne']
    rw [hs, Set.univ_inter]
    have hle : volume (Set.Ioi hi) ≤ volume (Set.Icc lo hi)ᶜ := measure_mono (by
      intro x hx
      simp only [Set.mem_compl_iff, Set.mem_Icc, not_and, not_le]
      exact fun _ => hx)
    rw [Real.volume_Ioi] at hle
    exact lt_of_lt_of_le (by simp) hle
  linarith

theorem mass_pos {f : ℝ → ℝ} (hc : Continuous f) (hp : ∀ x, 0 < f x) {lo hi : ℝ} (h : lo < hi) :
    0 < ∫ x in Set.Icc lo hi, f x := by
  rw [setIntegral_pos_iff_support_of_nonneg_ae (Filter.Eventually.of_forall fun x => (hp x).le)
    (hc.continuousOn.integrableOn_compact isCompact_Icc)]
  have hs : Function.support f = Set.univ := by
    ext x
    simp [(hp x).ne']
  rw [hs, Set.univ_inter, Real.volume_Icc]
  simpa using h

end Verif.Plot
