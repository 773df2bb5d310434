/- Helper lemmas about correlation coefficients. -/
import Verif.Lemmas.ChainPlots

namespace Verif.Plot
open Verif

theorem zip_sum (x y : List ℝ) (f : ℝ → ℝ → ℝ) (h : x.length = y.length) :
    ((x.zip y).map (fun e => f e.1 e.2)).sum = ∑ i ∈ Finset.range x.length, f (x.getD i 0) (y.getD i 0) := by
  induction x generalizing y with
  | nil => simp
  | cons a x ih =>
    cases y with
    | nil => simp at h
    | cons b y =>
      rw [List.zip_cons_cons, List.map_cons, List.sum_cons, List.length_cons, Finset.sum_range_succ', ih y (by simpa using h)]
      simp [add_comm]

theorem coSum_eq (x y : List ℝ) (h : x.length = y.length) :
    coSum x y = ∑ i ∈ Finset.range x.length, (x.getD i 0 - mean x) * (y.getD i 0 - mean y) :=
  zip_sum x y (fun a b => (a - mean x) * (b - mean y)) h

theorem coSum_self (x : List ℝ) : coSum x x = ∑ i ∈ Finset.range x.length, (x.getD i 0 - mean x) ^ 2 := by
  rw [coSum_eq x x rfl]
  exact Finset.sum_congr rfl fun i _ => by ring

theorem coSum_comm (x y : List ℝ) (h : x.length = y.length) : coSum x y = coSum y x := by
  rw [coSum_eq x y h, coSum_eq y x h.symm, h]
  exact Finset.sum_congr rfl fun i _ => by ring

theorem coSum_self_pos (x : List ℝ) (h : ∃ a ∈ x, ∃ b ∈ x, a ≠ b) : 0 < coSum x x := by
  have : coSum x x = lagSum x 0 := by
    rw [coSum_eq x x rfl]
    unfold lagSum
    simp
  rw [this]
  exact lagSum_pos x ((varies_iff x).2 h)

theorem coSum_self_zero (x : List ℝ) (h : ∀ a ∈ x, ∀ b ∈ x, a = b) : coSum x x = 0 := by
  have hall : ∀ v ∈ x, v = mean x := by
    by_contra hcon
    push Not at hcon
    obtain ⟨a, ha, b, hb, hne⟩ := (varies_iff x).1 hcon
    exact hne (h a ha b hb)
  rw [coSum_self]
  refine Finset.sum_eq_zero fun i hi => ?_
  rw [Finset.mem_range] at hi
  rw [List.getD_eq_getElem?_getD, List.getElem?_eq_getElem hi, Option.getD_some, ← hall _ (List.getElem_mem hi)]
  ring

theorem coSum_sq_le (x y : List ℝ) (h : x.length = y.length) : coSum x y ^ 2 ≤ coSum x x * coSum y y := by
  rw [coSum_eq x y h, coSum_self x, coSum_self y, ← h]
  exact Finset.sum_mul_sq_le_sq_mul_sq _ _ _

theorem correlation_bounds (x y : List ℝ) (h : x.length = y.length) : -1 ≤ correlation x y ∧ correlation x y ≤ 1 := by
  have hs := coSum_sq_le x y h
  rw [← abs_le]
  unfold correlation
  rw [abs_div, abs_of_nonneg (Real.sqrt_nonneg _)]
  refine div_le_one_of_le₀ ?_ (Real.sqrt_nonneg _)
  exact Real.abs_le_sqrt hs

/-- The computed coefficient is the correlation. -/
theorem corrcoef_eq (x y : List ℝ) (h : x.length = y.length) (hx : ∃ a ∈ x, ∃ b ∈ x, a ≠ b) (hy : ∃ a ∈ y, ∃ b ∈ y, a ≠ b) :
    corrcoef x y = .fin (correlation x y) := by
  have hpx := coSum_self_pos x hx
  have hpy := coSum_self_pos y hy
  have hlen : 2 ≤ x.length := by
    obtain ⟨a, ha, b, hb, hne⟩ := hx
    by_contra hcon
    have hl : x.length = 1 := by
      have := List.length_pos_of_mem ha
      omega
    obtain ⟨c, rfl⟩ := List.length_eq_one_iff.1 hl
    simp at ha hb
    exact hne (ha.trans hb.symm)
  have hn : (0 : ℝ) < (x.length : ℝ) - 1 := by
    have : (2 : ℝ) ≤ x.length := by exact_mod_cast hlen
    linarith
  have hcx : cov x x = coSum x x / ((x.length : ℝ) - 1) := rfl
  have hcy : cov y y = coSum y y / ((x.length : ℝ) - 1) := by rw [h]; rfl
  have hcxy : cov x y = coSum x y / ((x.length : ℝ) - 1) := rfl
  have hval : cov x y / Real.sqrt (cov x x) / Real.sqrt (cov y y) = correlation x y := by
    rw [hcx, hcy, hcxy, Real.sqrt_div hpx.le, Real.sqrt_div hpy.le, correlation, Real.sqrt_mul hpx.le]
    have h1 := (Real.sqrt_pos.2 hpx).ne'
    have h2 := (Real.sqrt_pos.2 hpy).ne'
    have h3 := (Real.sqrt_pos.2 hn).ne'
    have h4 : Real.sqrt ((x.length : ℝ) - 1) * Real.sqrt ((x.length : ℝ) - 1) = (x.length : ℝ) - 1 := Real.mul_self_sqrt hn.le
    field_simp
    rw [sq, h4]
  unfold corrcoef
  rw [if_neg, hval, min_eq_right (correlation_bounds x y h).2, max_eq_right (correlation_bounds x y h).1]
  rw [not_or, hcx, hcy]
  exact ⟨(Real.sqrt_pos.2 (div_pos hpx hn)).ne', (Real.sqrt_pos.2 (div_pos hpy hn)).ne'⟩

theorem mean_map (x : List ℝ) (a b : ℝ) (hx : x ≠ []) : mean (x.map (fun v => a * v + b)) = a * mean x + b := by
  have hl : (x.length : ℝ) ≠ 0 := by simpa using hx
  have hs : (x.map (fun v => a * v + b)).sum = a * x.sum + x.length * b := by
    clear hl hx
    induction x with
    | nil => simp
    | cons c x ih =>
      simp only [List.map_cons, List.sum_cons, List.length_cons, ih]
      push_cast
      ring
  rw [mean, hs, List.length_map, mean]
  field_simp

theorem coSum_affine (x : List ℝ) (a b : ℝ) (hx : x ≠ []) : coSum x (x.map (fun v => a * v + b)) = a * coSum x x ∧
    coSum (x.map (fun v => a * v + b)) (x.map (fun v => a * v + b)) = a ^ 2 * coSum x x := by
  have hget : ∀ i ∈ Finset.range x.length, (x.map (fun v => a * v + b)).getD i 0 - mean (x.map (fun v => a * v + b)) =
      a * (x.getD i 0 - mean x) := by
    intro i hi
    rw [Finset.mem_range] at hi
    rw [mean_map x a b hx, List.getD_eq_getElem?_getD, List.getElem?_map, List.getElem?_eq_getElem hi, List.getD_eq_getElem?_getD,
      List.getElem?_eq_getElem hi]
    simp only [Option.map_some, Option.getD_some]
    ring
  constructor
  · rw [coSum_eq _ _ (by simp), coSum_self, Finset.mul_sum]
    exact Finset.sum_congr rfl fun i hi => by rw [hget i hi]; ring
  · rw [coSum_self, coSum_self, Finset.mul_sum, List.length_map]
    exact Finset.sum_congr rfl fun i hi => by rw [hget i hi]; ring

theorem correlation_affine (x : List ℝ) (a b : ℝ) (hx : ∃ u ∈ x, ∃ v ∈ x, u ≠ v) :
    correlation x (x.map (fun v => a * v + b)) = SignType.sign a := by
  have hne : x ≠ [] := by
    obtain ⟨u, hu, _⟩ := hx
    exact List.ne_nil_of_mem hu
  have hp := coSum_self_pos x hx
  obtain ⟨h1, h2⟩ := coSum_affine x a b hne
  rw [correlation, h1, h2, show coSum x x * (a ^ 2 * coSum x x) = (a * coSum x x) ^ 2 by ring, Real.sqrt_sq_eq_abs, abs_mul,
    abs_of_pos hp, mul_div_mul_right _ _ hp.ne']
  rcases lt_trichotomy a 0 with h | h | h
  · rw [abs_of_neg h, sign_neg h, div_neg, div_self h.ne]
    simp
  · simp [h]
  · rw [abs_of_pos h, sign_pos h, div_self h.ne']
    simp

/-- A coefficient of size 1 comes from an affine relation. -/
theorem affine_of_correlation (x y : List ℝ) (h : x.length = y.length) (hx : ∃ u ∈ x, ∃ v ∈ x, u ≠ v)
    (hy : ∃ u ∈ y, ∃ v ∈ y, u ≠ v) (hc : correlation x y ^ 2 = 1) :
    ∃ a b, y = x.map (fun v => a * v + b) := by
  have hpx := coSum_self_pos x hx
  have hpy := coSum_self_pos y hy
  have hsq : coSum x y ^ 2 = coSum x x * coSum y y := by
    rw [correlation, div_pow, Real.sq_sqrt (mul_pos hpx hpy).le, div_eq_one_iff_eq (mul_pos hpx hpy).ne'] at hc
    exact hc
  have hzero : ∑ i ∈ Finset.range x.length, (coSum x x * (y.getD i 0 - mean y) - coSum x y * (x.getD i 0 - mean x)) ^ 2 = 0 := by
    have hexp : ∑ i ∈ Finset.range x.length, (coSum x x * (y.getD i 0 - mean y) - coSum x y * (x.getD i 0 - mean x)) ^ 2 =
        coSum x x ^ 2 * coSum y y - 2 * coSum x x * coSum x y * coSum x y + coSum x y ^ 2 * coSum x x := by
      conv_rhs => rw [show coSum x x ^ 2 * coSum y y - 2 * coSum x x * coSum x y * coSum x y + coSum x y ^ 2 * coSum x x =
        coSum x x ^ 2 * (∑ i ∈ Finset.range x.length, (y.getD i 0 - mean y) ^ 2) -
          2 * coSum x x * coSum x y * (∑ i ∈ Finset.range x.length, (x.getD i 0 - mean x) * (y.getD i 0 - mean y)) +
          coSum x y ^ 2 * (∑ i ∈ Finset.range x.length, (x.getD i 0 - mean x) ^ 2) by
        rw [← coSum_self x, ← coSum_eq x y h, h, ← coSum_self y]]
      rw [Finset.mul_sum, Finset.mul_sum, Finset.mul_sum, ← Finset.sum_sub_distrib, ← Finset.sum_add_distrib]
      exact Finset.sum_congr rfl fun i _ => by ring
    rw [hexp, show coSum x x ^ 2 * coSum y y = coSum x x * (coSum x x * coSum y y) by ring, ← hsq]
    ring
  rw [Finset.sum_eq_zero_iff_of_nonneg (fun i _ => sq_nonneg _)] at hzero
  refine ⟨coSum x y / coSum x x, mean y - coSum x y / coSum x x * mean x, ?_⟩
  apply List.ext_getElem
  · simp [h]
  · intro i h1 h2
    have hi : i < x.length := by omega
    have := hzero i (Finset.mem_range.2 hi)
    rw [sq_eq_zero_iff, sub_eq_zero, List.getD_eq_getElem?_getD, List.getElem?_eq_getElem h1, List.getD_eq_getElem?_getD,
      List.getElem?_eq_getElem hi] at this
    simp only [Option.getD_some] at this
    rw [List.getElem_map]
    field_simp
    linarith

theorem correlation_one_iff (x y : List ℝ) (h : x.length = y.length) (hx : ∃ u ∈ x, ∃ v ∈ x, u ≠ v)
    (hy : ∃ u ∈ y, ∃ v ∈ y, u ≠ v) :
    (correlation x y = 1 ↔ ∃ a b, 0 < a ∧ y = x.map (fun v => a * v + b)) ∧
      (correlation x y = -1 ↔ ∃ a b, a < 0 ∧ y = x.map (fun v => a * v + b)) := by
  constructor
  · constructor
    · intro hc
      obtain ⟨a, b, rfl⟩ := affine_of_correlation x y h hx hy (by rw [hc]; norm_num)
      refine ⟨a, b, ?_, rfl⟩
      rw [correlation_affine x a b hx] at hc
      by_contra hcon
      rcases lt_or_eq_of_le (not_lt.1 hcon) with h' | h'
      · rw [sign_neg h'] at hc; norm_num at hc
      · rw [h', sign_zero] at hc; norm_num at hc
    · rintro ⟨a, b, ha, rfl⟩
      rw [correlation_affine x a b hx, sign_pos ha]
      simp
  · constructor
    · intro hc
      obtain ⟨a, b, rfl⟩ := affine_of_correlation x y h hx hy (by rw [hc]; norm_num)
      refine ⟨a, b, ?_, rfl⟩
      rw [correlation_affine x a b hx] at hc
      by_contra hcon
      rcases lt_or_eq_of_le (not_lt.1 hcon) with h' | h'
      · rw [sign_pos h'] at hc; norm_num at hc
      · rw [← h', sign_zero] at hc; norm_num at hc
    · rintro ⟨a, b, ha, rfl⟩
      rw [correlation_affine x a b hx, sign_neg ha]
      simp

end Verif.Plot
