/-
Helper lemmas about the spread that is left after clipping and rounding.
-/
import Verif.Lemmas.RoundedCounts

namespace Verif.Plugins
open Verif MeasureTheory ProbabilityTheory Randgen

variable {Ω : Type} [MeasurableSpace Ω]

/-- A count near a clipped number keeps the spread of the number, but for half a unit and what the clipping takes from the tails. -/
theorem spread_low {P : Measure Ω} [IsProbabilityMeasure P] {X : Ω → ℝ} {H : Ω → ℤ} {g : ℝ → ℝ} {m d v K : ℝ} (hX : MemLp X 4 P)
    (hmeas : Measurable H) (hd : 0 < d) (hg : ∀ x, |g x - m| ≤ |x - m|) (hgd : ∀ x, |x - m| < d → g x = x)
    (hv : v ≤ ∫ ω, (X ω - m) ^ 2 ∂P) (hK : ∫ ω, (X ω - m) ^ 4 ∂P ≤ K) (hH : ∀ ω, |(H ω : ℝ) - g (X ω)| ≤ 1 / 2) :
    √(v - K / d ^ 2) ≤ √(∫ ω, ((H ω : ℝ) - m) ^ 2 ∂P) + 1 / 2 := by
  have hD4 : MemLp (fun ω => X ω - m) 4 P := hX.sub (memLp_const m)
  have hD : MemLp (fun ω => X ω - m) 2 P := hD4.mono_exponent (by norm_num)
  have hi2 : Integrable (fun ω => (X ω - m) ^ 2) P := hD.integrable_sq
  have hi4 : Integrable (fun ω => (X ω - m) ^ 4) P := by
    have h := hD4.integrable_norm_pow (p := 4) (by norm_num)
    refine h.congr (Filter.Eventually.of_forall fun ω => ?_)
    simp only [Real.norm_eq_abs]
    rw [show (4 : ℕ) = 2 * 2 from rfl, pow_mul, sq_abs, ← pow_mul]
  have hHr : Measurable (fun ω => (H ω : ℝ)) := (measurable_of_countable (fun k : ℤ => (k : ℝ))).comp hmeas
  have hE : MemLp (fun ω => (H ω : ℝ) - m) 2 P := by
    refine MemLp.of_le ((hD.abs).add (memLp_const (1 / 2 : ℝ))) (hHr.sub_const m).aestronglyMeasurable (Filter.Eventually.of_forall fun ω => ?_)
    have h3 := abs_add_le ((H ω : ℝ) - g (X ω)) (g (X ω) - m)
    rw [sub_add_sub_cancel] at h3
    have h4 := hg (X ω)
    have h5 := hH ω
    rw [Real.norm_eq_abs, Real.norm_eq_abs]
    change _ ≤ |(|X ω - m| + 1 / 2)|
    rw [abs_of_nonneg (a := |X ω - m| + 1 / 2) (by positivity)]
    linarith
  have hpoint : ∀ ω, (X ω - m) ^ 2 - (X ω - m) ^ 4 / d ^ 2 ≤ ((H ω : ℝ) - m) ^ 2 + |(H ω : ℝ) - m| + 1 / 4 := by
    intro ω
    have h1 : (X ω - m) ^ 2 - (X ω - m) ^ 4 / d ^ 2 ≤ (g (X ω) - m) ^ 2 := by
      rcases lt_or_ge |X ω - m| d with c | c
      · rw [hgd _ c]
        have : 0 ≤ (X ω - m) ^ 4 / d ^ 2 := by positivity
        linarith
      · have c2 : d ^ 2 ≤ (X ω - m) ^ 2 := by rw [← sq_abs (X ω - m)]; exact pow_le_pow_left₀ hd.le c 2
        have : (X ω - m) ^ 2 ≤ (X ω - m) ^ 4 / d ^ 2 := by
          rw [le_div_iff₀ (by positivity)]
          nlinarith [sq_nonneg (X ω - m)]
        nlinarith [sq_nonneg (g (X ω) - m)]
    have h : |g (X ω) - m| ≤ |(H ω : ℝ) - m| + 1 / 2 := by
      have h3 := abs_add_le (g (X ω) - H ω) ((H ω : ℝ) - m)
      rw [sub_add_sub_cancel, abs_sub_comm (g (X ω)) (H ω)] at h3
      have := hH ω
      linarith
    have h2 := pow_le_pow_left₀ (abs_nonneg _) h 2
    rw [sq_abs] at h2
    have : (|(H ω : ℝ) - m| + 1 / 2) ^ 2 = ((H ω : ℝ) - m) ^ 2 + |(H ω : ℝ) - m| + 1 / 4 := by
      rw [add_sq, sq_abs]
      ring
    linarith
  have j2 := hE.integrable_sq
  have j1 : Integrable (fun ω => |(H ω : ℝ) - m|) P := (hE.integrable (by norm_num)).abs
  have hle : ∫ ω, (X ω - m) ^ 2 - (X ω - m) ^ 4 / d ^ 2 ∂P ≤ ∫ ω, ((H ω : ℝ) - m) ^ 2 + |(H ω : ℝ) - m| + 1 / 4 ∂P :=
    integral_mono (hi2.sub (hi4.div_const _)) ((j2.add j1).add (integrable_const _)) hpoint
  have j12 : Integrable (fun ω => ((H ω : ℝ) - m) ^ 2 + |(H ω : ℝ) - m|) P := j2.add j1
  rw [integral_sub hi2 (hi4.div_const _), integral_div, integral_add j12 (integrable_const _), integral_add j2 j1] at hle
  have hcs : (∫ ω, |(H ω : ℝ) - m| ∂P) ^ 2 ≤ ∫ ω, ((H ω : ℝ) - m) ^ 2 ∂P := by
    have hvar := variance_nonneg (fun ω => |(H ω : ℝ) - m|) P
    have hEa : MemLp (fun ω => |(H ω : ℝ) - m|) 2 P := hE.abs
    rw [variance_eq_sub hEa] at hvar
    simp only [Pi.pow_apply, sq_abs] at hvar
    linarith
  have hs : ∫ ω, |(H ω : ℝ) - m| ∂P ≤ √(∫ ω, ((H ω : ℝ) - m) ^ 2 ∂P) := Real.le_sqrt_of_sq_le hcs
  have hs0 : 0 ≤ ∫ ω, ((H ω : ℝ) - m) ^ 2 ∂P := integral_nonneg fun ω => sq_nonneg _
  have hKd : (∫ ω, (X ω - m) ^ 4 ∂P) / d ^ 2 ≤ K / d ^ 2 := div_le_div_of_nonneg_right hK (by positivity)
  refine Real.sqrt_le_iff.2 ⟨by positivity, ?_⟩
  rw [add_sq, Real.sq_sqrt hs0]
  simp only [integral_const, probReal_univ, one_smul] at hle
  linarith

/-- The spread is that of the number, from above and from below. -/
theorem spread_two {P : Measure Ω} [IsProbabilityMeasure P] {X : Ω → ℝ} {H : Ω → ℤ} {g : ℝ → ℝ} {m d v : ℝ} (hX : MemLp X 4 P)
    (hmeas : Measurable H) (hd : 0 < d) (hg : ∀ x, |g x - m| ≤ |x - m|) (hgd : ∀ x, |x - m| < d → g x = x)
    (hv : ∫ ω, (X ω - m) ^ 2 ∂P = v) (hK : ∫ ω, (X ω - m) ^ 4 ∂P ≤ 4 * v ^ 2) (hH : ∀ ω, |(H ω : ℝ) - g (X ω)| ≤ 1 / 2) :
    |√(∫ ω, ((H ω : ℝ) - m) ^ 2 ∂P) - √v| ≤ 1 / 2 + 2 * v / d := by
  have hlow := spread_low hX hmeas hd hg hgd hv.ge hK hH
  have hup := near_rms (hX.mono_exponent (by norm_num)) hg hv.le hH
  have hv0 : 0 ≤ v := hv ▸ integral_nonneg fun ω => sq_nonneg _
  have hs := Real.sqrt_nonneg v
  have hss := Real.sq_sqrt hv0
  have hup2 := Real.sqrt_le_sqrt hup
  rw [Real.sqrt_sq (by positivity)] at hup2
  have hc : 0 ≤ 2 * v / d := by positivity
  have h3 : √v - 2 * v / d ≤ √(v - 4 * v ^ 2 / d ^ 2) := by
    rcases le_or_gt √v (2 * v / d) with c | c
    · exact (sub_nonpos.2 c).trans (Real.sqrt_nonneg _)
    · refine Real.le_sqrt_of_sq_le ?_
      have e : 4 * v ^ 2 / d ^ 2 = (2 * v / d) ^ 2 := by
        rw [div_pow]
        ring
      rw [e]
      nlinarith
  rw [abs_le]
  constructor <;> linarith

/-- The spread of the count of a normal draw cut off at zero. -/
theorem low_spread (r : Rounding) (hr : ∀ y, |(r.fn y : ℝ) - y| ≤ 1 / 2) {m f : ℝ} (hm : 0 < m) (hf : 0 ≤ f) :
    |√(∫ z, (((r.fn (max (z * √(f * m) + m) 0) : ℤ) : ℝ) - m) ^ 2 ∂(gaussianReal 0 1)) - √(f * m)| ≤ 1 / 2 + 2 * f := by
  have hv : 0 ≤ f * m := by positivity
  obtain ⟨-, -, h3⟩ := line_moments m (√(f * m))
  have hid : MemLp (fun z : ℝ => z) 4 (gaussianReal 0 1) := memLp_id_gaussianReal (μ := 0) (v := 1) 4
  have h4 : ∫ z, (z * √(f * m) + m - m) ^ 4 ∂(gaussianReal 0 1) ≤ 4 * (f * m) ^ 2 := by
    have e : ∀ z : ℝ, (z * √(f * m) + m - m) ^ 4 = (√(f * m)) ^ 4 * z ^ 4 := by intro z; ring
    simp only [e]
    rw [integral_const_mul, N_four, show (√(f * m)) ^ 4 = ((√(f * m)) ^ 2) ^ 2 by ring, Real.sq_sqrt hv]
    nlinarith [sq_nonneg (f * m)]
  rw [Real.sq_sqrt hv] at h3
  have := spread_two (P := gaussianReal 0 1) (X := fun z => z * √(f * m) + m) (H := fun z => r.fn (max (z * √(f * m) + m) 0)) (g := fun x => max x 0)
    (m := m) (d := m) ((hid.mul_const _).add (memLp_const m)) (r.mono.measurable.comp (by fun_prop)) hm (fun x => low_near hm.le)
    (fun x hx => max_eq_left (by linarith [(abs_lt.1 hx).1])) h3 h4 (fun z => hr _)
  rwa [show 2 * (f * m) / m = 2 * f by field_simp] at this

theorem both_spread {P : Measure Ω} [IsProbabilityMeasure P] (r : Rounding) (hr : ∀ y, |(r.fn y : ℝ) - y| ≤ 1 / 2) {X : Ω → ℝ} (hXm : Measurable X)
    {q v : ℝ} {n : ℤ} (hX : MemLp X 4 P) (hn : 0 < n) (q0 : 0 < q) (q1 : q < 1) (hv : ∫ ω, (X ω - q * n) ^ 2 ∂P = v)
    (hK : ∫ ω, (X ω - q * n) ^ 4 ∂P ≤ 4 * v ^ 2) :
    |√(∫ ω, (((clipInt (r.fn (X ω)) 0 n : ℤ) : ℝ) - q * n) ^ 2 ∂P) - √v| ≤ 1 / 2 + 2 * v / (min q (1 - q) * n) := by
  have hn' : (0 : ℝ) < n := by exact_mod_cast hn
  have hmin : 0 < min q (1 - q) := lt_min q0 (by linarith)
  have hclip : Measurable (fun k : ℤ => clipInt k 0 n) := measurable_of_countable _
  refine spread_two (g := fun x => min (max x 0) n) hX (hclip.comp (r.mono.measurable.comp hXm)) (by positivity)
    (fun x => both_near (by positivity) (by nlinarith)) (fun x hx => ?_) hv hK (fun ω => round_clip r hr _ n hn.le)
  have h := abs_lt.1 hx
  have a1 : min q (1 - q) * n ≤ q * n := mul_le_mul_of_nonneg_right (min_le_left _ _) hn'.le
  have a2 : min q (1 - q) * n ≤ (1 - q) * n := mul_le_mul_of_nonneg_right (min_le_right _ _) hn'.le
  have b1 : 0 ≤ x := by linarith [h.1]
  have b2 : x ≤ n := by linarith [h.2]
  rw [max_eq_left b1, min_eq_left b2]

theorem line_four (m s : ℝ) : MemLp (fun z => z * s + m) 4 (gaussianReal 0 1) ∧ ∫ z, (z * s + m - m) ^ 4 ∂(gaussianReal 0 1) = 3 * s ^ 4 := by
  have hid : MemLp (fun z : ℝ => z) 4 (gaussianReal 0 1) := memLp_id_gaussianReal (μ := 0) (v := 1) 4
  refine ⟨(hid.mul_const s).add (memLp_const m), ?_⟩
  have e : ∀ z : ℝ, (z * s + m - m) ^ 4 = s ^ 4 * z ^ 4 := by intro z; ring
  simp only [e]
  rw [integral_const_mul, N_four]
  ring

theorem N_abs_three : ∫ x, |x| ^ 3 ∂N = 2 * A := by
  rw [integral_gaussianReal_eq_integral_smul one_ne_zero]
  have h1 : ∀ x : ℝ, gaussianPDFReal 0 1 x • |x| ^ 3 = (fun y : ℝ => (√(2 * Real.pi))⁻¹ * (y ^ 3 * Real.exp (-(1 / 2) * y ^ 2))) |x| := by
    intro x
    simp only [gpdf_eq, smul_eq_mul, sq_abs]
    ring
  simp only [h1]
  rw [integral_comp_abs (f := fun y : ℝ => (√(2 * Real.pi))⁻¹ * (y ^ 3 * Real.exp (-(1 / 2) * y ^ 2))), integral_const_mul]
  have h := integral_rpow_mul_exp_neg_mul_rpow (p := 2) (q := (3 : ℕ)) (b := 1 / 2) (by norm_num)
    (lt_of_lt_of_le (by norm_num) (Nat.cast_nonneg _)) (by norm_num)
  have he : ∀ x : ℝ, x ^ 3 * Real.exp (-(1 / 2) * x ^ 2) = x ^ ((3 : ℕ) : ℝ) * Real.exp (-(1 / 2) * x ^ (2 : ℝ)) := by
    intro x
    rw [Real.rpow_natCast, Real.rpow_two]
  simp only [he]
  rw [h]
  have e1 : (((3 : ℕ) : ℝ) + 1) / 2 = 2 := by norm_num
  have e2 : -(((3 : ℕ) : ℝ) + 1) / 2 = -2 := by norm_num
  have e4 : Real.Gamma 2 = 1 := by
    norm_num [show (2 : ℝ) = ((1 : ℕ) : ℝ) + 1 by norm_num, Real.Gamma_nat_eq_factorial]
  rw [e1, e2, e4]
  have e3 : ((1 : ℝ) / 2) ^ (-2 : ℝ) = 4 := by
    rw [Real.rpow_neg (by norm_num), Real.rpow_two]
    norm_num
  rw [e3, A_eq, sqrt_two_pi]
  have hs2 : √2 ≠ 0 := (Real.sqrt_pos.2 (by norm_num)).ne'
  have hp : √Real.pi ≠ 0 := (Real.sqrt_pos.2 Real.pi_pos).ne'
  field_simp
  norm_num


/-- The fourth moment of a skewed line about its mean is at most four times the square of its variance. -/
theorem skew_line_four (a k loc : ℝ) :
    MemLp (fun p : ℝ × ℝ => k * (a * |p.1| + p.2) + loc) 4 (N.prod N) ∧
    ∫ p, ((fun p : ℝ × ℝ => k * (a * |p.1| + p.2) + loc) p - (k * a * A + loc)) ^ 4 ∂(N.prod N) ≤ 4 * (k ^ 2 * (1 + a ^ 2 * (1 - 2 / Real.pi))) ^ 2 := by
  have hid : MemLp (fun z : ℝ => z) 4 N := memLp_id_gaussianReal (μ := 0) (v := 1) 4
  have h1 : MemLp (fun p : ℝ × ℝ => |p.1|) 4 (N.prod N) := (hid.abs).comp_measurePreserving measurePreserving_fst
  have h2 : MemLp (fun p : ℝ × ℝ => p.2) 4 (N.prod N) := hid.comp_measurePreserving measurePreserving_snd
  have hX : MemLp (fun p : ℝ × ℝ => k * (a * |p.1| + p.2) + loc) 4 (N.prod N) :=
    (((h1.const_mul a).add h2).const_mul k).add (memLp_const loc)
  refine ⟨hX, ?_⟩
  have hD : MemLp (fun p : ℝ × ℝ => k * (a * |p.1| + p.2) + loc - (k * a * A + loc)) 4 (N.prod N) := hX.sub (memLp_const _)
  have hi : Integrable (fun p : ℝ × ℝ => (k * (a * |p.1| + p.2) + loc - (k * a * A + loc)) ^ 4) (N.prod N) := by
    have h := hD.integrable_norm_pow (p := 4) (by norm_num)
    refine h.congr (Filter.Eventually.of_forall fun p => ?_)
    simp only [Real.norm_eq_abs]
    rw [show (4 : ℕ) = 2 * 2 from rfl, pow_mul, sq_abs, ← pow_mul]
  rw [integral_prod _ hi]
  have p1 : Integrable (fun x : ℝ => x) N := N_int_id
  have p2 : Integrable (fun x : ℝ => x ^ 2) N := N_int_sq
  have p3 : Integrable (fun x : ℝ => x ^ 3) N := N_int_pow 3
  have p4 : Integrable (fun x : ℝ => x ^ 4) N := N_int_pow 4
  have m3 : ∫ x, x ^ 3 ∂N = 0 := N_odd 3 (by decide)
  have inner : ∀ z0 : ℝ, ∫ z1, (k * (a * |z0| + z1) + loc - (k * a * A + loc)) ^ 4 ∂N
      = k ^ 4 * ((a * (|z0| - A)) ^ 4 + 6 * (a * (|z0| - A)) ^ 2 + 3) := by
    intro z0
    generalize hc : a * (|z0| - A) = c
    have e : ∀ z1 : ℝ, (k * (a * |z0| + z1) + loc - (k * a * A + loc)) ^ 4
        = k ^ 4 * (z1 ^ 4 + (4 * c * z1 ^ 3 + (6 * c ^ 2 * z1 ^ 2 + (4 * c ^ 3 * z1 + c ^ 4)))) := by
      intro z1
      rw [← hc]
      ring
    simp only [e]
    have q4 : Integrable (fun z : ℝ => 4 * c ^ 3 * z + c ^ 4) N := (p1.const_mul _).add (integrable_const _)
    have q3 : Integrable (fun z : ℝ => 6 * c ^ 2 * z ^ 2 + (4 * c ^ 3 * z + c ^ 4)) N := (p2.const_mul _).add q4
    have q2 : Integrable (fun z : ℝ => 4 * c * z ^ 3 + (6 * c ^ 2 * z ^ 2 + (4 * c ^ 3 * z + c ^ 4))) N := (p3.const_mul _).add q3
    rw [integral_const_mul, integral_add p4 q2, integral_add (p3.const_mul _) q3, integral_add (p2.const_mul _) q4,
      integral_add (p1.const_mul _) (integrable_const _), integral_const_mul, integral_const_mul, integral_const_mul, N_four, m3, N_sq, N_id]
    simp only [integral_const, probReal_univ, one_smul]
    ring
  simp only [inner]
  rw [integral_const_mul]
  have a1 : Integrable (fun x : ℝ => |x|) N := N_int_abs
  have a3 : Integrable (fun x : ℝ => |x| ^ 3) N := by
    refine (p3.abs).congr (Filter.Eventually.of_forall fun x => ?_)
    simp only [abs_pow]
  have e : ∀ z : ℝ, (a * (|z| - A)) ^ 4 + 6 * (a * (|z| - A)) ^ 2 + 3
      = a ^ 4 * z ^ 4 + (-4 * a ^ 4 * A * |z| ^ 3 + ((6 * a ^ 4 * A ^ 2 + 6 * a ^ 2) * z ^ 2 + ((-4 * a ^ 4 * A ^ 3 - 12 * a ^ 2 * A) * |z|
        + (a ^ 4 * A ^ 4 + 6 * a ^ 2 * A ^ 2 + 3)))) := by
    intro z
    have z4 : z ^ 4 = |z| ^ 4 := by rw [show (4 : ℕ) = 2 * 2 from rfl, pow_mul, pow_mul, sq_abs]
    have z2 : z ^ 2 = |z| ^ 2 := (sq_abs z).symm
    rw [z4, z2]
    ring
  simp only [e]
  have q4 : Integrable (fun z : ℝ => (-4 * a ^ 4 * A ^ 3 - 12 * a ^ 2 * A) * |z| + (a ^ 4 * A ^ 4 + 6 * a ^ 2 * A ^ 2 + 3)) N :=
    (a1.const_mul _).add (integrable_const _)
  have q3 : Integrable (fun z : ℝ => (6 * a ^ 4 * A ^ 2 + 6 * a ^ 2) * z ^ 2 + ((-4 * a ^ 4 * A ^ 3 - 12 * a ^ 2 * A) * |z|
      + (a ^ 4 * A ^ 4 + 6 * a ^ 2 * A ^ 2 + 3))) N := (p2.const_mul _).add q4
  have q2 : Integrable (fun z : ℝ => -4 * a ^ 4 * A * |z| ^ 3 + ((6 * a ^ 4 * A ^ 2 + 6 * a ^ 2) * z ^ 2 + ((-4 * a ^ 4 * A ^ 3 - 12 * a ^ 2 * A) * |z|
      + (a ^ 4 * A ^ 4 + 6 * a ^ 2 * A ^ 2 + 3)))) N := (a3.const_mul _).add q3
  rw [integral_add (p4.const_mul _) q2, integral_add (a3.const_mul _) q3, integral_add (p2.const_mul _) q4,
    integral_add (a1.const_mul _) (integrable_const _), integral_const_mul, integral_const_mul, integral_const_mul, integral_const_mul, N_four,
    N_abs_three, N_sq, N_abs]
  simp only [integral_const, probReal_univ, one_smul]
  have hA := A_sq
  have hpi : 0 < Real.pi := Real.pi_pos
  have hpi3 : Real.pi < 3.15 := Real.pi_lt_d2
  have hpi0 : 3 < Real.pi := Real.pi_gt_three
  -- the moment is `k⁴ (a⁴ (3 - 2 A² - 3 A⁴) + 6 a² (1 - A²) + 3)`
  have key : 3 - 2 * A ^ 2 - 3 * A ^ 4 ≤ 4 * (1 - A ^ 2) ^ 2 := by
    have e4 : A ^ 4 = (A ^ 2) ^ 2 := by ring
    rw [e4, hA]
    have hB : 2 / Real.pi * Real.pi = 2 := by field_simp
    have b1 : 2 / Real.pi < 2 / 3 := div_lt_div_of_pos_left (by norm_num) (by norm_num) hpi0
    have b2 : 2 / 3.15 < 2 / Real.pi := div_lt_div_of_pos_left (by norm_num) hpi hpi3
    norm_num at b2
    generalize 2 / Real.pi = B at *
    nlinarith
  have hc : 0 ≤ 1 - A ^ 2 := by
    rw [hA]
    have : 2 / Real.pi < 1 := by rw [div_lt_one hpi]; linarith
    linarith
  rw [← hA]
  have hk : 0 ≤ k ^ 4 := by positivity
  have hle := mul_le_mul_of_nonneg_left key (show (0 : ℝ) ≤ a ^ 4 by positivity)
  have ha2 := mul_nonneg (sq_nonneg a) hc
  have := mul_nonneg hk (show 0 ≤ 1 + 2 * (a ^ 2 * (1 - A ^ 2)) + (a ^ 4 * (4 * (1 - A ^ 2) ^ 2) - a ^ 4 * (3 - 2 * A ^ 2 - 3 * A ^ 4)) by linarith)
  nlinarith [this]

end Verif.Plugins
