/-
Second moments of the corrected normal draw of the binomial sampler (randgen.py 262-292), and what rounding and clipping do to a
mean and a spread.
-/
import Mathlib.MeasureTheory.Integral.Gamma
import Mathlib.Analysis.SpecialFunctions.Gaussian.GaussianIntegral
import Verif.Lemmas.BinomialMoments
import Verif.Lemmas.Sampler

namespace Verif.Randgen
open Verif MeasureTheory ProbabilityTheory Plugins

theorem N_int_pow (k : ℕ) : Integrable (fun x : ℝ => x ^ k) (gaussianReal 0 1) := by
  rcases Nat.eq_zero_or_pos k with h0 | h0
  · subst h0
    simp
  · have h := (memLp_id_gaussianReal (μ := 0) (v := 1) k).integrable_norm_pow (by exact_mod_cast h0.ne')
    refine (integrable_norm_iff (by fun_prop)).1 ?_
    simpa using h

theorem N_even (k : ℕ) : ∫ x, x ^ (2 * k) ∂(gaussianReal 0 1) = 2 ^ k * Real.Gamma (k + 1 / 2) / √Real.pi := by
  rw [integral_gaussianReal_eq_integral_smul one_ne_zero]
  have h1 : ∀ x : ℝ, gaussianPDFReal 0 1 x • x ^ (2 * k) =
      (fun y : ℝ => (√(2 * Real.pi))⁻¹ * (y ^ (2 * k) * Real.exp (-(1 / 2) * y ^ 2))) |x| := by
    intro x
    have : |x| ^ (2 * k) = x ^ (2 * k) := by rw [pow_mul, sq_abs, ← pow_mul]
    simp only [gpdf_eq, smul_eq_mul, sq_abs, this]
    ring
  simp only [h1]
  rw [integral_comp_abs (f := fun y : ℝ => (√(2 * Real.pi))⁻¹ * (y ^ (2 * k) * Real.exp (-(1 / 2) * y ^ 2))),
    integral_const_mul]
  have h := integral_rpow_mul_exp_neg_mul_rpow (p := 2) (q := (2 * k : ℕ)) (b := 1 / 2) (by norm_num)
    (lt_of_lt_of_le (by norm_num) (Nat.cast_nonneg _)) (by norm_num)
  have he : ∀ x : ℝ, x ^ (2 * k) * Real.exp (-(1 / 2) * x ^ 2) =
      x ^ ((2 * k : ℕ) : ℝ) * Real.exp (-(1 / 2) * x ^ (2 : ℝ)) := by
    intro x
    rw [Real.rpow_natCast, Real.rpow_two]
  simp only [he]
  rw [h, sqrt_two_pi]
  have e1 : (((2 * k : ℕ) : ℝ) + 1) / 2 = k + 1 / 2 := by push_cast; ring
  have e2 : -(((2 * k : ℕ) : ℝ) + 1) / 2 = -(k + 1 / 2) := by push_cast; ring
  rw [e2, e1]
  have e3 : ((1 : ℝ) / 2) ^ (-((k : ℝ) + 1 / 2)) = 2 ^ k * √2 := by
    rw [one_div, Real.inv_rpow (by norm_num), Real.rpow_neg (by norm_num), inv_inv, Real.rpow_add (by norm_num),
      Real.rpow_natCast, Real.sqrt_eq_rpow, one_div]
  rw [e3]
  have hs2 : √2 ≠ 0 := (Real.sqrt_pos.2 (by norm_num)).ne'
  have hp : √Real.pi ≠ 0 := (Real.sqrt_pos.2 Real.pi_pos).ne'
  field_simp

theorem N_four : ∫ x, x ^ 4 ∂(gaussianReal 0 1) = 3 := by
  have h := N_even 2
  have e : ((2 : ℕ) : ℝ) + 1 / 2 = (1 / 2 + 1) + 1 := by norm_num
  rw [e, Real.Gamma_add_one (by norm_num), Real.Gamma_add_one (by norm_num), Real.Gamma_one_half_eq] at h
  rw [show (4 : ℕ) = 2 * 2 from rfl, h]
  have hp : √Real.pi ≠ 0 := (Real.sqrt_pos.2 Real.pi_pos).ne'
  field_simp
  norm_num

theorem N_six : ∫ x, x ^ 6 ∂(gaussianReal 0 1) = 15 := by
  have h := N_even 3
  have e : ((3 : ℕ) : ℝ) + 1 / 2 = ((1 / 2 + 1) + 1) + 1 := by norm_num
  rw [e, Real.Gamma_add_one (by norm_num), Real.Gamma_add_one (by norm_num), Real.Gamma_add_one (by norm_num),
    Real.Gamma_one_half_eq] at h
  rw [show (6 : ℕ) = 2 * 3 from rfl, h]
  have hp : √Real.pi ≠ 0 := (Real.sqrt_pos.2 Real.pi_pos).ne'
  field_simp
  norm_num

theorem N_odd (k : ℕ) (hk : Odd k) : ∫ x, x ^ k ∂(gaussianReal 0 1) = 0 := by
  have h : ∫ x, x ^ k ∂(gaussianReal 0 1) = ∫ x, (-x) ^ k ∂(gaussianReal 0 1) := by
    have hm := gaussianReal_map_neg (μ := 0) (v := 1)
    rw [neg_zero] at hm
    conv_lhs => rw [← hm]
    exact integral_map (by fun_prop) (by fun_prop)
  have h2 : ∫ x : ℝ, (-x) ^ k ∂(gaussianReal 0 1) = - ∫ x, x ^ k ∂(gaussianReal 0 1) := by
    rw [← integral_neg]
    congr 1
    funext x
    exact hk.neg_pow x
  linarith

/-- The second moment of a combination of the first three Hermite polynomials of a standard normal number. -/
theorem hermite_sq (A B C : ℝ) :
    ∫ z, (A * z + B * (z ^ 2 - 1) + C * (z ^ 3 - 3 * z)) ^ 2 ∂(gaussianReal 0 1) = A ^ 2 + 2 * B ^ 2 + 6 * C ^ 2 := by
  have he : ∀ z : ℝ, (A * z + B * (z ^ 2 - 1) + C * (z ^ 3 - 3 * z)) ^ 2 =
      ∑ k ∈ Finset.range 7, (![B ^ 2, -2 * A * B + 6 * B * C, A ^ 2 - 2 * B ^ 2 - 6 * A * C + 9 * C ^ 2,
        2 * A * B - 8 * B * C, B ^ 2 + 2 * A * C - 6 * C ^ 2, 2 * B * C, C ^ 2] : Fin 7 → ℝ) (Fin.ofNat 7 k) * z ^ k := by
    intro z
    simp [Finset.sum_range_succ, Fin.ofNat]
    ring
  simp only [he]
  rw [integral_finsetSum _ (fun k _ => (N_int_pow k).const_mul _)]
  simp only [integral_const_mul]
  simp only [Finset.sum_range_succ, Finset.sum_range_zero]
  have h0 : ∫ x : ℝ, x ^ 0 ∂(gaussianReal 0 1) = 1 := by simp
  rw [h0, N_odd 1 (by decide), N_sq, N_odd 3 (by decide), N_four, N_odd 5 (by decide), N_six]
  simp [Fin.ofNat]
  ring

/-- The variance of the corrected draw. -/
noncomputable def cfVar (p : ℝ) (n : ℤ) : ℝ :=
  (n * p * (1 - p) + 1e-12) * (1 + (((1 - p - p) / (√(n * p * (1 - p) + 1e-12) + 1e-12)) ^ 2) ^ 2 / 1296 +
    6 * ((1 - 6 * p * (1 - p)) / (n * p * (1 - p) + 1e-12) / 24
      - ((1 - p - p) / (√(n * p * (1 - p) + 1e-12) + 1e-12)) ^ 2 / 18) ^ 2)

theorem cornishFisher_hermite (p : ℝ) (n : ℤ) (h : 0 ≤ n * p * (1 - p) + 1e-12) :
    ∃ A B C : ℝ, (∀ z, cornishFisher p n z = n * p + (A * z + B * (z ^ 2 - 1) + C * (z ^ 3 - 3 * z))) ∧
      A ^ 2 + 2 * B ^ 2 + 6 * C ^ 2 = cfVar p n := by
  let sigma := √(n * p * (1 - p) + 1e-12)
  let g1 := (1 - p - p) / (sigma + 1e-12)
  let g2 := (1 - 6 * p * (1 - p)) / (n * p * (1 - p) + 1e-12)
  refine ⟨sigma * (1 - g1 ^ 2 / 36), sigma * g1 / 6, sigma * (g2 / 24 - g1 ^ 2 / 18), fun z => ?_, ?_⟩
  · change n * p + sigma * (z + g1 / 6 * (z * z - 1) + g2 / 24 * (z * z * z - 3 * z)
      - g1 * g1 / 36 * (2 * (z * z * z) - 5 * z)) = _
    ring
  · have hs : sigma ^ 2 = n * p * (1 - p) + 1e-12 := Real.sq_sqrt h
    change _ = (n * p * (1 - p) + 1e-12) * (1 + (g1 ^ 2) ^ 2 / 1296 + 6 * (g2 / 24 - g1 ^ 2 / 18) ^ 2)
    rw [← hs]
    ring

theorem cornishFisher_memLp (p : ℝ) (n : ℤ) : MemLp (cornishFisher p n) 2 (gaussianReal 0 1) := by
  obtain ⟨a, b, c, h⟩ := cornishFisher_poly p n
  have hm : AEStronglyMeasurable (cornishFisher p n) (gaussianReal 0 1) := (cornishFisher_integrable p n).1
  refine (memLp_two_iff_integrable_sq hm).2 ?_
  have he : ∀ z : ℝ, cornishFisher p n z ^ 2 =
      ∑ k ∈ Finset.range 7, (![(n * p - b) ^ 2, 2 * a * (n * p - b), a ^ 2 + 2 * b * (n * p - b),
        2 * a * b + 2 * c * (n * p - b), b ^ 2 + 2 * a * c, 2 * b * c, c ^ 2] : Fin 7 → ℝ) (Fin.ofNat 7 k) * z ^ k := by
    intro z
    rw [h]
    simp [Finset.sum_range_succ, Fin.ofNat]
    ring
  simp only [he]
  exact integrable_finsetSum _ (fun k _ => (N_int_pow k).const_mul _)

theorem cornishFisher_var (p : ℝ) (n : ℤ) (h : 0 ≤ n * p * (1 - p) + 1e-12) :
    ∫ z, (cornishFisher p n z - n * p) ^ 2 ∂(gaussianReal 0 1) = cfVar p n := by
  obtain ⟨A, B, C, h1, h2⟩ := cornishFisher_hermite p n h
  simp only [h1, add_sub_cancel_left]
  rw [hermite_sq, h2]

theorem cfVar_bounds (p : ℝ) (n : ℤ) (hn : 0 ≤ n) (h0 : 0 ≤ p) (h1 : p ≤ 1) :
    n * p * (1 - p) + 1e-12 ≤ cfVar p n ∧
      cfVar p n ≤ (n * p * (1 - p) + 1e-12) + 1 / (64 * (n * p * (1 - p) + 1e-12)) := by
  have hn' : (0 : ℝ) ≤ n := by exact_mod_cast hn
  have hV : 0 ≤ n * p * (1 - p) := mul_nonneg (mul_nonneg hn' h0) (by linarith)
  unfold cfVar
  generalize n * p * (1 - p) = V at hV ⊢
  have hW : 0 < V + 1e-12 := by norm_num; linarith
  generalize hWe : V + 1e-12 = W at hW ⊢
  have hsW : √W ^ 2 = W := Real.sq_sqrt hW.le
  have hs0 : 0 < √W := Real.sqrt_pos.2 hW
  have hq : 0 ≤ p * (1 - p) := mul_nonneg h0 (by linarith)
  have hq4 : p * (1 - p) ≤ 1 / 4 := by nlinarith [sq_nonneg (p - 1 / 2)]
  have hg : ((1 - p - p) / (√W + 1e-12)) ^ 2 ≤ (1 - 4 * (p * (1 - p))) / W := by
    rw [div_pow, show (1 - p - p) ^ 2 = 1 - 4 * (p * (1 - p)) by ring]
    apply div_le_div_of_nonneg_left (by linarith) hW
    nlinarith
  have hg0 : 0 ≤ ((1 - p - p) / (√W + 1e-12)) ^ 2 := sq_nonneg _
  generalize ((1 - p - p) / (√W + 1e-12)) ^ 2 = g at hg hg0 ⊢
  rw [show 6 * p * (1 - p) = 6 * (p * (1 - p)) by ring]
  generalize p * (1 - p) = q at hq hq4 hg ⊢
  constructor
  · nlinarith [sq_nonneg g, sq_nonneg ((1 - 6 * q) / W / 24 - g / 18)]
  · have hgW : g * W ≤ 1 - 4 * q := (le_div_iff₀ hW).1 hg
    have hgW0 : 0 ≤ g * W := mul_nonneg hg0 hW.le
    have e1 : W * (1 + g ^ 2 / 1296 + 6 * ((1 - 6 * q) / W / 24 - g / 18) ^ 2) =
        W + ((g * W) ^ 2 / 1296 + 6 * ((1 - 6 * q) / 24 - g * W / 18) ^ 2) / W := by
      field_simp
      ring
    have e2 : 1 / (64 * W) = (1 / 64) / W := by field_simp
    rw [e1, e2]
    have ha : (g * W) ^ 2 ≤ 1 := by nlinarith
    have hb : ((1 - 6 * q) / 24 - g * W / 18) ^ 2 ≤ (1 / 24) ^ 2 := by
      apply sq_le_sq'
      · linarith
      · linarith
    have : (g * W) ^ 2 / 1296 + 6 * ((1 - 6 * q) / 24 - g * W / 18) ^ 2 ≤ 1 / 64 := by nlinarith
    have := div_le_div_of_nonneg_right this hW.le
    linarith

/-- Keeping a number between limits, and then moving it by at most one half, changes its distance to a number between the limits
by at most one half. -/
theorem near_clip {x h m n : ℝ} (h0 : 0 ≤ m) (hn : m ≤ n) (hh : |h - min (max x 0) n| ≤ 1 / 2) :
    |h - m| ≤ |x - m| + 1 / 2 := by
  have h1 : |min (max x 0) n - m| ≤ |x - m| := by
    rcases le_total x 0 with c | c
    · rw [max_eq_right c, min_eq_left (h0.trans hn), abs_of_nonpos (by linarith), abs_of_nonpos (by linarith)]
      linarith
    · rw [max_eq_left c]
      rcases le_total x n with d | d
      · rw [min_eq_left d]
      · rw [min_eq_right d, abs_of_nonneg (by linarith), abs_of_nonneg (by linarith)]
        linarith
  calc |h - m| = |(h - min (max x 0) n) + (min (max x 0) n - m)| := by ring_nf
    _ ≤ |h - min (max x 0) n| + |min (max x 0) n - m| := abs_add_le _ _
    _ ≤ 1 / 2 + |x - m| := add_le_add hh h1
    _ = _ := by ring

/-- What clipping moves is at most a fraction of the squared distance to the mean. -/
theorem clip_moves {x m n : ℝ} (h0 : 0 < m) (hn : m < n) :
    |min (max x 0) n - x| ≤ (x - m) ^ 2 * (n / (4 * m * (n - m))) := by
  have hd : 0 < n - m := by linarith
  have hsplit : n / (4 * m * (n - m)) = 1 / (4 * m) + 1 / (4 * (n - m)) := by
    field_simp
    ring
  rw [hsplit, mul_add]
  have p1 : 0 ≤ (x - m) ^ 2 * (1 / (4 * m)) := by positivity
  have p2 : 0 ≤ (x - m) ^ 2 * (1 / (4 * (n - m))) := by positivity
  rcases le_total x 0 with c | c
  · rw [max_eq_right c, min_eq_left (h0.trans hn).le, abs_of_nonneg (by linarith)]
    have : 0 - x ≤ (x - m) ^ 2 * (1 / (4 * m)) := by
      rw [mul_one_div, le_div_iff₀ (by linarith)]
      nlinarith [sq_nonneg (x + m)]
    linarith
  · rw [max_eq_left c]
    rcases le_total x n with d | d
    · rw [min_eq_left d]
      simp only [sub_self, abs_zero]
      linarith
    · rw [min_eq_right d, abs_of_nonpos (by linarith)]
      have : -(n - x) ≤ (x - m) ^ 2 * (1 / (4 * (n - m))) := by
        rw [mul_one_div, le_div_iff₀ (by linarith)]
        nlinarith [sq_nonneg (x - n - (n - m))]
      linarith

/-- A lower bound for the probability that a standard normal number lies in an interval. -/
theorem N_Icc_lower {a b c : ℝ} (hab : a ≤ b) (hc : ∀ x ∈ Set.Icc a b, x ^ 2 ≤ c) :
    (b - a) * ((√(2 * Real.pi))⁻¹ * Real.exp (-(c / 2))) ≤ (gaussianReal 0 1).real (Set.Icc a b) := by
  rw [Measure.real, gaussianReal_apply_eq_integral 0 one_ne_zero, ENNReal.toReal_ofReal
    (setIntegral_nonneg measurableSet_Icc (fun x _ => gaussianPDFReal_nonneg _ _ _))]
  have h := setIntegral_mono_on (μ := volume) (s := Set.Icc a b) (f := fun _ => (√(2 * Real.pi))⁻¹ * Real.exp (-(c / 2)))
    (g := gaussianPDFReal 0 1) (integrableOn_const (by simp)) (integrable_gaussianPDFReal 0 1).integrableOn measurableSet_Icc (fun x hx => by
      rw [gpdf_eq]
      have := hc x hx
      apply mul_le_mul_of_nonneg_left _ (by positivity)
      apply Real.exp_le_exp.2
      linarith)
  refine le_trans (le_of_eq ?_) h
  rw [setIntegral_const, Measure.real, Real.volume_Icc, ENNReal.toReal_ofReal (by linarith), smul_eq_mul]

theorem inv_sqrt_two_pi_lower : (0.398 : ℝ) ≤ (√(2 * Real.pi))⁻¹ := by
  have hpi := Real.pi_lt_d2
  have hs : √(2 * Real.pi) ≤ 2.51 := by
    rw [Real.sqrt_le_left (by norm_num)]
    norm_num
    linarith
  have hp : 0 < √(2 * Real.pi) := Real.sqrt_pos.2 (by positivity)
  rw [le_inv_comm₀ (by norm_num) hp]
  exact hs.trans (by norm_num)

variable {Ω : Type} [MeasurableSpace Ω]

theorem rounded_rms {P : Measure Ω} [IsProbabilityMeasure P] {X : Ω → ℝ} {H : Ω → ℤ} {m n v : ℝ} (hX : MemLp X 2 P)
    (h0 : 0 ≤ m) (hn : m ≤ n) (hv : ∫ ω, (X ω - m) ^ 2 ∂P ≤ v)
    (hH : ∀ ω, |(H ω : ℝ) - min (max (X ω) 0) n| ≤ 1 / 2) :
    ∫ ω, ((H ω : ℝ) - m) ^ 2 ∂P ≤ (√v + 1 / 2) ^ 2 := by
  have hD : MemLp (fun ω => X ω - m) 2 P := hX.sub (memLp_const m)
  have hi2 : Integrable (fun ω => (X ω - m) ^ 2) P := hD.integrable_sq
  have hi1 : Integrable (fun ω => |X ω - m|) P := (hD.integrable (by norm_num)).abs
  have hpoint : ∀ ω, ((H ω : ℝ) - m) ^ 2 ≤ (X ω - m) ^ 2 + |X ω - m| + 1 / 4 := by
    intro ω
    have h := near_clip h0 hn (hH ω)
    have h2 := pow_le_pow_left₀ (abs_nonneg _) h 2
    rw [sq_abs] at h2
    have : (|X ω - m| + 1 / 2) ^ 2 = (X ω - m) ^ 2 + |X ω - m| + 1 / 4 := by
      rw [add_sq, sq_abs]
      ring
    linarith
  have hI : Integrable (fun ω => (X ω - m) ^ 2 + |X ω - m| + 1 / 4) P := (hi2.add hi1).add (integrable_const _)
  have hle : ∫ ω, ((H ω : ℝ) - m) ^ 2 ∂P ≤ ∫ ω, (X ω - m) ^ 2 + |X ω - m| + 1 / 4 ∂P :=
    integral_mono_of_nonneg (Filter.Eventually.of_forall (fun ω => sq_nonneg _)) hI (Filter.Eventually.of_forall hpoint)
  have hsum : ∫ ω, (X ω - m) ^ 2 + |X ω - m| + 1 / 4 ∂P = ∫ ω, (X ω - m) ^ 2 ∂P + ∫ ω, |X ω - m| ∂P + 1 / 4 := by
    have hi12 : Integrable (fun ω => (X ω - m) ^ 2 + |X ω - m|) P := hi2.add hi1
    rw [integral_add hi12 (integrable_const _), integral_add hi2 hi1]
    simp
  have hcs : (∫ ω, |X ω - m| ∂P) ^ 2 ≤ ∫ ω, (X ω - m) ^ 2 ∂P := by
    have hvar := variance_nonneg (fun ω => |X ω - m|) P
    have hDa : MemLp (fun ω => |X ω - m|) 2 P := hD.abs
    rw [variance_eq_sub hDa] at hvar
    simp only [Pi.pow_apply, sq_abs] at hvar
    linarith
  have hv0 : 0 ≤ v := (integral_nonneg (fun ω => sq_nonneg _)).trans hv
  have hs : ∫ ω, |X ω - m| ∂P ≤ √v := by
    apply Real.le_sqrt_of_sq_le
    linarith
  rw [add_sq, Real.sq_sqrt hv0]
  linarith

theorem rounded_mean {P : Measure Ω} [IsProbabilityMeasure P] {X : Ω → ℝ} {H : Ω → ℤ} {m n v : ℝ} (hX : MemLp X 2 P)
    (hmeas : Measurable H) (h0 : 0 < m) (hn : m < n) (hmean : ∫ ω, X ω ∂P = m) (hv : ∫ ω, (X ω - m) ^ 2 ∂P ≤ v)
    (hH : ∀ ω, |(H ω : ℝ) - min (max (X ω) 0) n| ≤ 1 / 2) :
    |∫ ω, (H ω : ℝ) ∂P - m| ≤ 1 / 2 + v * (n / (4 * m * (n - m))) := by
  have hD : MemLp (fun ω => X ω - m) 2 P := hX.sub (memLp_const m)
  have hi2 : Integrable (fun ω => (X ω - m) ^ 2) P := hD.integrable_sq
  have hXi : Integrable X P := hX.integrable (by norm_num)
  have hpoint : ∀ ω, |(H ω : ℝ) - X ω| ≤ 1 / 2 + (X ω - m) ^ 2 * (n / (4 * m * (n - m))) := by
    intro ω
    have h1 := hH ω
    have h2 := clip_moves (x := X ω) h0 hn
    have h3 := abs_add_le ((H ω : ℝ) - min (max (X ω) 0) n) (min (max (X ω) 0) n - X ω)
    rw [sub_add_sub_cancel] at h3
    linarith
  have hB : Integrable (fun ω => 1 / 2 + (X ω - m) ^ 2 * (n / (4 * m * (n - m)))) P :=
    (integrable_const _).add (hi2.mul_const _)
  have hHm : Measurable (fun ω => (H ω : ℝ)) := (measurable_of_countable (fun k : ℤ => (k : ℝ))).comp hmeas
  have hdiff : Integrable (fun ω => (H ω : ℝ) - X ω) P :=
    hB.mono' (hHm.aestronglyMeasurable.sub hXi.1) (Filter.Eventually.of_forall (fun ω => by simpa using hpoint ω))
  have hHi : Integrable (fun ω => (H ω : ℝ)) P := by
    have := hdiff.add hXi
    refine this.congr (Filter.Eventually.of_forall (fun ω => ?_))
    simp
  rw [← hmean, ← integral_sub hHi hXi]
  refine (abs_integral_le_integral_abs).trans ?_
  refine (integral_mono hdiff.abs hB hpoint).trans ?_
  rw [integral_add (integrable_const _) (hi2.mul_const _), integral_mul_const]
  simp only [integral_const, probReal_univ, smul_eq_mul, one_mul, hmean]
  have hc : 0 ≤ n / (4 * m * (n - m)) := by
    have : 0 < n - m := by linarith
    have : 0 < n := by linarith
    positivity
  have := mul_le_mul_of_nonneg_right hv hc
  linarith

theorem hybrid_cf (rnd : ℝ → ℤ) (threshold : Nat) (n : ℤ) (p z : ℝ) (u : Nat → ℝ) (hn : (threshold : ℤ) < n) (h0 : 0 < p)
    (h1 : p < 1) : hybrid rnd threshold p n z u = cfPath rnd p n z := by
  unfold hybrid
  simp only
  rw [if_neg (by omega : ¬ n ≤ threshold), if_neg (not_le.2 h0), if_neg (not_le.2 h1), if_neg (by omega : ¬ n ≤ 0)]

theorem cornishFisher_measurable (p : ℝ) (n : ℤ) : Measurable (cornishFisher p n) := by
  obtain ⟨a, b, c, h⟩ := cornishFisher_poly p n
  rw [funext h]
  fun_prop

theorem cfPath_measurable {rnd : ℝ → ℤ} (hm : Monotone rnd) (p : ℝ) (n : ℤ) : Measurable (cfPath rnd p n) := by
  have h1 : ∀ q, Measurable (fun z => rnd (cornishFisher q n z)) := fun q => hm.measurable.comp (cornishFisher_measurable q n)
  unfold cfPath
  simp only
  by_cases c : (0.5 : ℝ) < p
  · simp only [c, if_true]
    exact (measurable_of_countable (fun k : ℤ => n - min (max k 0) n)).comp (h1 (1 - p))
  · simp only [c, if_false]
    exact (measurable_of_countable (fun k : ℤ => min (max k 0) n)).comp (h1 p)

/-- Above the threshold the draw is within one half of the corrected draw kept between zero and the count. -/
theorem hybrid_near (threshold : Nat) (n : ℤ) (p : ℝ) (hn : (threshold : ℤ) < n) (h0 : 0 < p) (h1 : p < 1) :
    ∃ x : ℝ → ℝ, Measurable x ∧ MemLp x 2 (gaussianReal 0 1) ∧ ∫ z, x z ∂(gaussianReal 0 1) = n * p ∧
      n * p * (1 - p) + 1e-12 ≤ ∫ z, (x z - n * p) ^ 2 ∂(gaussianReal 0 1) ∧
      ∫ z, (x z - n * p) ^ 2 ∂(gaussianReal 0 1) ≤
        (n * p * (1 - p) + 1e-12) + 1 / (64 * (n * p * (1 - p) + 1e-12)) ∧
      ∀ rnd : ℝ → ℤ, (∀ y, |(rnd y : ℝ) - y| ≤ 1 / 2) → ∀ z u,
        |(hybrid rnd threshold p n z u : ℝ) - min (max (x z) 0) n| ≤ 1 / 2 := by
  have hnr : (0 : ℝ) ≤ n := by exact_mod_cast (by omega : 0 ≤ n)
  have hval := fun rnd z u => hybrid_cf rnd threshold n p z u hn h0 h1
  have hclip : ∀ (rnd : ℝ → ℤ) (y : ℝ), |(rnd y : ℝ) - y| ≤ 1 / 2 →
      |((min (max (rnd y) 0) n : ℤ) : ℝ) - min (max y 0) n| ≤ 1 / 2 := by
    intro rnd y hy
    push_cast
    refine (abs_min_sub_min_le_max _ _ _ _).trans ?_
    rw [sub_self, abs_zero]
    refine max_le ((abs_max_sub_max_le_max _ _ _ _).trans ?_) (by norm_num)
    rw [sub_self, abs_zero]
    exact max_le hy (by norm_num)
  have hmeas := fun q : ℝ => cornishFisher_measurable q n
  have hvar : ∀ q : ℝ, 0 < q → q < 1 → 0 ≤ n * q * (1 - q) + 1e-12 := by
    intro q hq0 hq1
    have := mul_nonneg (mul_nonneg hnr hq0.le) (by linarith : 0 ≤ 1 - q)
    norm_num
    linarith
  by_cases hp : p ≤ 1 / 2
  · have hb := cfVar_bounds p n (by omega) h0.le h1.le
    refine ⟨cornishFisher p n, hmeas p, cornishFisher_memLp p n, cornishFisher_mean p n, ?_, ?_, fun rnd hr z u => ?_⟩
    · rw [cornishFisher_var p n (hvar p h0 h1)]
      exact hb.1
    · rw [cornishFisher_var p n (hvar p h0 h1)]
      exact hb.2
    · rw [hval]
      unfold cfPath
      simp only
      rw [if_neg (by norm_num; linarith), if_neg (by norm_num; linarith)]
      exact hclip rnd _ (hr _)
  · have hb := cfVar_bounds (1 - p) n (by omega) (by linarith) (by linarith)
    have e : (n : ℝ) * (1 - p) * (1 - (1 - p)) = n * p * (1 - p) := by ring
    have e2 : ∀ z, (n - cornishFisher (1 - p) n z - n * p) ^ 2 = (cornishFisher (1 - p) n z - n * (1 - p)) ^ 2 := by
      intro z
      ring
    rw [e] at hb
    have hv := cornishFisher_var (1 - p) n (hvar (1 - p) (by linarith) (by linarith))
    refine ⟨fun z => n - cornishFisher (1 - p) n z, measurable_const.sub (hmeas _),
      (memLp_const _).sub (cornishFisher_memLp _ n), ?_, ?_, ?_, fun rnd hr z u => ?_⟩
    · rw [integral_sub (integrable_const _) (cornishFisher_integrable _ n), cornishFisher_mean]
      simp
      ring
    · simp only [e2]
      rw [hv]
      exact hb.1
    · simp only [e2]
      rw [hv]
      exact hb.2
    · rw [hval]
      unfold cfPath
      simp only
      rw [if_pos (by norm_num; linarith), if_pos (by norm_num; linarith)]
      have h := hclip rnd (cornishFisher (1 - p) n z) (hr _)
      rw [Int.cast_sub]
      generalize ((min (max (rnd (cornishFisher (1 - p) n z)) 0) n : ℤ) : ℝ) = k at h ⊢
      generalize cornishFisher (1 - p) n z = y at h ⊢
      have : min (max ((n : ℝ) - y) 0) n = n - min (max y 0) n := by
        rcases le_total y 0 with c | c
        · rw [max_eq_right c, min_eq_left hnr, max_eq_left (by linarith), min_eq_right (by linarith), sub_zero]
        · rw [max_eq_left c]
          rcases le_total y n with d | d
          · rw [min_eq_left d, max_eq_left (by linarith), min_eq_left (by linarith)]
          · rw [min_eq_right d, max_eq_right (by linarith), min_eq_left hnr, sub_self]
      rw [this, show (n : ℝ) - k - (n - min (max y 0) n) = -(k - min (max y 0) n) by ring, abs_neg]
      exact h

theorem law_integral {P : Measure Ω} {m : Nat} {r : Ω → Rng m} (hr : IdealSource P r) (k : Key) (i : Fin m) {f : ℝ → ℝ}
    (hf : Measurable f) : ∫ ω, f ((r ω).normal k i) ∂P = ∫ z, f z ∂(gaussianReal 0 1) := by
  rw [← hr.normal_law k i]
  exact (integral_map (hr.normal_meas k i).aemeasurable hf.aestronglyMeasurable).symm

theorem cornishFisher_coeff (p : ℝ) (n : ℤ) (z : ℝ) (h : 0 < n * p * (1 - p) + 1e-12) :
    ∃ s g1 g2 : ℝ, s = √(n * p * (1 - p) + 1e-12) ∧ g1 = (1 - p - p) / (s + 1e-12) ∧ g2 = (1 - 6 * p * (1 - p)) / s ^ 2 ∧
      cornishFisher p n z = n * p + s * z - s * g1 * (1 - z * z) / 6 - s * g2 * (3 * z - z * z * z) / 24
        + s * (g1 * g1) * (5 * z - 2 * (z * z * z)) / 36 := by
  refine ⟨_, _, _, rfl, rfl, rfl, ?_⟩
  unfold cornishFisher
  simp only
  rw [Real.sq_sqrt h.le]
  ring

theorem tiny_poly {z s g1 g2 t m : ℝ} (hz1 : 1 / 4 ≤ z) (hz2 : z ≤ 17 / 20) (hm : 0 ≤ m) (hs0 : 0 ≤ s) (ha : s * g1 ≤ 1)
    (hb : s * g2 ≤ t) (hc : (1 - 1 / 100000) * t ≤ s * (g1 * g1)) (ht : 70000 ≤ t) :
    201 ≤ m + s * z - s * g1 * (1 - z * z) / 6 - s * g2 * (3 * z - z * z * z) / 24
        + s * (g1 * g1) * (5 * z - 2 * (z * z * z)) / 36 := by
  have hsz : 0 ≤ s * z := mul_nonneg hs0 (by linarith)
  have hz2' : z * z ≤ 289 / 400 := by nlinarith
  have hz3 : 0 ≤ 3 * z - z * z * z := by nlinarith
  have hz4 : 0 ≤ 5 * z - 2 * (z * z * z) := by nlinarith
  have h1 : s * g1 * (1 - z * z) ≤ 1 := by
    have := mul_le_mul_of_nonneg_right ha (by linarith : 0 ≤ 1 - z * z)
    linarith [mul_self_nonneg z]
  have h2 := mul_le_mul_of_nonneg_right hb hz3
  have h3 := mul_le_mul_of_nonneg_right hc hz4
  have hz5 : 5 * z - 2 * (z * z * z) ≤ 5 := by nlinarith
  have hcub : 234 / 1000 ≤ z - z * z * z := by
    have : 0 ≤ (z - 1 / 4) * (17 / 20 - z) * (z + 11 / 10) :=
      mul_nonneg (mul_nonneg (by linarith) (by linarith)) (by linarith)
    nlinarith
  have ht2 := mul_le_mul_of_nonneg_left hcub (by linarith : 0 ≤ t)
  have ht3 : t * (5 * z - 2 * (z * z * z)) ≤ t * 5 := mul_le_mul_of_nonneg_left hz5 (by linarith)
  have e3 : (1 - 1 / 100000) * t * (5 * z - 2 * (z * z * z)) =
      t * (5 * z - 2 * (z * z * z)) - t * (5 * z - 2 * (z * z * z)) / 100000 := by ring
  have e4 : t * (5 * z - 2 * (z * z * z)) / 36 - t * (3 * z - z * z * z) / 24 = t * (z - z * z * z) / 72 := by ring
  linarith

theorem cornishFisher_tiny {z : ℝ} (hz : z ∈ Set.Icc (1 / 4 : ℝ) (17 / 20)) : 201 ≤ cornishFisher 1e-12 200 z := by
  obtain ⟨s, g1, g2, hs, hg1, hg2, hcf⟩ := cornishFisher_coeff 1e-12 200 z (by norm_num)
  rw [hcf]
  have hlo : (141 / 10000000 : ℝ) ≤ s := by
    rw [hs]
    apply Real.le_sqrt_of_sq_le
    norm_num
  have hhi : s ≤ 142 / 10000000 := by
    rw [hs, Real.sqrt_le_left (by norm_num)]
    norm_num
  clear hs hcf
  have hspos : 0 < s := by linarith
  norm_num at hg1 hg2
  have hd : 0 < s + 1 / 1000000000000 := by linarith
  refine tiny_poly (t := 1 / s) hz.1 hz.2 (by norm_num) hspos.le ?_ ?_ ?_ ?_
  · rw [hg1, mul_div_assoc', div_le_one hd]
    linarith
  · rw [hg2, mul_div_assoc', div_le_div_iff₀ (by positivity) hspos]
    nlinarith [sq_nonneg s]
  · have h1 : (1 - 1 / 1000000) * (1 / s) ≤ g1 := by
      rw [hg1, mul_one_div, div_le_div_iff₀ hspos hd]
      linarith
    have hi : 0 < 1 / s := by positivity
    have h10 : 0 ≤ (1 - 1 / 1000000) * (1 / s) := by linarith
    have h2 := mul_le_mul h1 h1 h10 (h10.trans h1)
    have h3 := mul_le_mul_of_nonneg_left h2 hspos.le
    refine le_trans ?_ h3
    have : s * ((1 - 1 / 1000000) * (1 / s) * ((1 - 1 / 1000000) * (1 / s))) = (1 - 1 / 1000000) ^ 2 * (1 / s) := by
      field_simp
    rw [this]
    linarith
  · rw [le_div_iff₀ hspos]
    linarith

theorem N_eight : ∫ x, x ^ 8 ∂(gaussianReal 0 1) = 105 := by
  have h := N_even 4
  have e : ((4 : ℕ) : ℝ) + 1 / 2 = (((1 / 2 + 1) + 1) + 1) + 1 := by norm_num
  rw [e, Real.Gamma_add_one (by norm_num), Real.Gamma_add_one (by norm_num), Real.Gamma_add_one (by norm_num),
    Real.Gamma_add_one (by norm_num), Real.Gamma_one_half_eq] at h
  rw [show (8 : ℕ) = 2 * 4 from rfl, h]
  have hp : √Real.pi ≠ 0 := (Real.sqrt_pos.2 Real.pi_pos).ne'
  field_simp
  norm_num

/-- The third moment of a combination of the first three Hermite polynomials of a standard normal number. -/
theorem hermite_cube (A B C : ℝ) :
    ∫ z, (A * z + B * (z ^ 2 - 1) + C * (z ^ 3 - 3 * z)) ^ 3 ∂(gaussianReal 0 1) =
      B * (6 * (A + 3 * C) ^ 2 + 54 * C ^ 2 + 8 * B ^ 2) := by
  have he : ∀ z : ℝ, (A * z + B * (z ^ 2 - 1) + C * (z ^ 3 - 3 * z)) ^ 3 =
      ∑ k ∈ Finset.range 10, (![-B ^ 3, 3 * (A - 3 * C) * B ^ 2, 3 * B ^ 3 - 3 * (A - 3 * C) ^ 2 * B,
        (A - 3 * C) ^ 3 - 6 * (A - 3 * C) * B ^ 2 + 3 * C * B ^ 2,
        3 * (A - 3 * C) ^ 2 * B - 3 * B ^ 3 - 6 * (A - 3 * C) * B * C,
        3 * (A - 3 * C) * B ^ 2 + 3 * (A - 3 * C) ^ 2 * C - 6 * B ^ 2 * C,
        B ^ 3 + 6 * (A - 3 * C) * B * C - 3 * B * C ^ 2, 3 * B ^ 2 * C + 3 * (A - 3 * C) * C ^ 2, 3 * B * C ^ 2, C ^ 3] :
        Fin 10 → ℝ) (Fin.ofNat 10 k) * z ^ k := by
    intro z
    simp [Finset.sum_range_succ, Fin.ofNat]
    ring
  simp only [he]
  rw [integral_finsetSum _ (fun k _ => (N_int_pow k).const_mul _)]
  simp only [integral_const_mul]
  simp only [Finset.sum_range_succ, Finset.sum_range_zero]
  have h0 : ∫ x : ℝ, x ^ 0 ∂(gaussianReal 0 1) = 1 := by simp
  rw [h0, N_odd 1 (by decide), N_sq, N_odd 3 (by decide), N_four, N_odd 5 (by decide), N_six, N_odd 7 (by decide), N_eight,
    N_odd 9 (by decide)]
  simp [Fin.ofNat]
  ring

/-- The corrected draw leans to the side of the binomial law. -/
theorem cornishFisher_skew (p : ℝ) (n : ℤ) (h : 0 < n * p * (1 - p) + 1e-12) :
    ∃ c : ℝ, 0 < c ∧ ∫ z, (cornishFisher p n z - n * p) ^ 3 ∂(gaussianReal 0 1) = c * (1 - 2 * p) := by
  let sigma := √(n * p * (1 - p) + 1e-12)
  let g1 := (1 - p - p) / (sigma + 1e-12)
  let g2 := (1 - 6 * p * (1 - p)) / (n * p * (1 - p) + 1e-12)
  have hs : 0 < sigma := Real.sqrt_pos.2 h
  have hd : 0 < sigma + 1e-12 := by norm_num; linarith
  let A := sigma * (1 - g1 ^ 2 / 36)
  let C := sigma * (g2 / 24 - g1 ^ 2 / 18)
  have hx : ∀ z, cornishFisher p n z - n * p = A * z + (sigma * g1 / 6) * (z ^ 2 - 1) + C * (z ^ 3 - 3 * z) := by
    intro z
    change (n * p + sigma * (z + g1 / 6 * (z * z - 1) + g2 / 24 * (z * z * z - 3 * z)
      - g1 * g1 / 36 * (2 * (z * z * z) - 5 * z))) - n * p = _
    simp only [A, C]
    ring
  simp only [hx]
  rw [hermite_cube]
  refine ⟨sigma / (6 * (sigma + 1e-12)) * (6 * (A + 3 * C) ^ 2 + 54 * C ^ 2 + 8 * (sigma * g1 / 6) ^ 2), ?_, ?_⟩
  · refine mul_pos (by positivity) ?_
    by_contra hc
    have h1 : (A + 3 * C) ^ 2 = 0 := by nlinarith [sq_nonneg (A + 3 * C), sq_nonneg C, sq_nonneg (sigma * g1 / 6)]
    have h2 : C ^ 2 = 0 := by nlinarith [sq_nonneg (A + 3 * C), sq_nonneg C, sq_nonneg (sigma * g1 / 6)]
    have h3 : (sigma * g1 / 6) ^ 2 = 0 := by nlinarith [sq_nonneg (A + 3 * C), sq_nonneg C, sq_nonneg (sigma * g1 / 6)]
    have hC : C = 0 := pow_eq_zero_iff (two_ne_zero) |>.1 h2
    have hA : A + 3 * C = 0 := pow_eq_zero_iff (two_ne_zero) |>.1 h1
    have hB : sigma * g1 / 6 = 0 := pow_eq_zero_iff (two_ne_zero) |>.1 h3
    have hg : g1 = 0 := by
      rcases mul_eq_zero.1 (by linarith : sigma * g1 = 0) with h | h
      · exact absurd h hs.ne'
      · exact h
    have : A = sigma := by simp only [A, hg]; ring
    linarith
  · have : sigma * g1 / 6 = sigma / (6 * (sigma + 1e-12)) * (1 - 2 * p) := by
      simp only [g1]
      field_simp
      ring
    rw [this]
    ring

end Verif.Randgen
