/-
Helper lemmas about counts that are rounded and clipped normal numbers.
-/
import Verif.Lemmas.BinomialSpread
import Verif.Lemmas.Plugins
import Verif.Lemmas.SkewMoments

namespace Verif.Plugins
open Verif MeasureTheory ProbabilityTheory Randgen

variable {Ω : Type} [MeasurableSpace Ω]

/-- A count near a clipped number `g`, where clipping moves nothing away from `m`, spreads about `m` by half a unit more than the number. -/
theorem near_rms {P : Measure Ω} [IsProbabilityMeasure P] {X : Ω → ℝ} {H : Ω → ℤ} {g : ℝ → ℝ} {m v : ℝ} (hX : MemLp X 2 P)
    (hg : ∀ x, |g x - m| ≤ |x - m|) (hv : ∫ ω, (X ω - m) ^ 2 ∂P ≤ v) (hH : ∀ ω, |(H ω : ℝ) - g (X ω)| ≤ 1 / 2) :
    ∫ ω, ((H ω : ℝ) - m) ^ 2 ∂P ≤ (√v + 1 / 2) ^ 2 := by
  have hD : MemLp (fun ω => X ω - m) 2 P := hX.sub (memLp_const m)
  have hi2 : Integrable (fun ω => (X ω - m) ^ 2) P := hD.integrable_sq
  have hi1 : Integrable (fun ω => |X ω - m|) P := (hD.integrable (by norm_num)).abs
  have hpoint : ∀ ω, ((H ω : ℝ) - m) ^ 2 ≤ (X ω - m) ^ 2 + |X ω - m| + 1 / 4 := by
    intro ω
    have h : |(H ω : ℝ) - m| ≤ |X ω - m| + 1 / 2 := by
      have h3 := abs_add_le ((H ω : ℝ) - g (X ω)) (g (X ω) - m)
      rw [sub_add_sub_cancel] at h3
      have := hg (X ω)
      have := hH ω
      linarith
    have h2 := pow_le_pow_left₀ (abs_nonneg _) h 2
    rw [sq_abs] at h2
    have : (|X ω - m| + 1 / 2) ^ 2 = (X ω - m) ^ 2 + |X ω - m| + 1 / 4 := by
      rw [add_sq, sq_abs]
      ring
    linarith
  have hI : Integrable (fun ω => (X ω - m) ^ 2 + |X ω - m| + 1 / 4) P := (hi2.add hi1).add (integrable_const _)
  have hle : ∫ ω, ((H ω : ℝ) - m) ^ 2 ∂P ≤ ∫ ω, (X ω - m) ^ 2 + |X ω - m| + 1 / 4 ∂P :=
    integral_mono_of_nonneg (Filter.Eventually.of_forall (fun ω => sq_nonneg _)) hI (Filter.Eventually.of_forall hpoint)
  have hsum : ∫ ω, (X ω - m) ^ 2 + |X ω - m| + 1 / 4 ∂P = ∫ ω, (X ω - m) ^ 2 ∂P + ∫ ω, |X ω - m| ∂P + 1 / 4 := by
    have hi12 : Integrable (fun ω => (X ω - m) ^ 2 + |X ω - m|) P := hi2.add hi1
    rw [integral_add hi12 (integrable_const _), integral_add hi2 hi1]
    simp
  have hcs : (∫ ω, |X ω - m| ∂P) ^ 2 ≤ ∫ ω, (X ω - m) ^ 2 ∂P := by
    have hvar := variance_nonneg (fun ω => |X ω - m|) P
    have hDa : MemLp (fun ω => |X ω - m|) 2 P := hD.abs
    rw [variance_eq_sub hDa] at hvar
    simp only [Pi.pow_apply, sq_abs] at hvar
    linarith
  have hv0 : 0 ≤ v := (integral_nonneg (fun ω => sq_nonneg _)).trans hv
  have hs : ∫ ω, |X ω - m| ∂P ≤ √v := by
    apply Real.le_sqrt_of_sq_le
    linarith
  rw [add_sq, Real.sq_sqrt hv0]
  linarith

theorem near_integrable {P : Measure Ω} [IsProbabilityMeasure P] {X : Ω → ℝ} {H : Ω → ℤ} {g : ℝ → ℝ} {m c : ℝ} (hX : MemLp X 2 P)
    (hmeas : Measurable H) (hg : ∀ x, |g x - x| ≤ (x - m) ^ 2 * c) (hH : ∀ ω, |(H ω : ℝ) - g (X ω)| ≤ 1 / 2) :
    Integrable (fun ω => (H ω : ℝ)) P ∧ Integrable (fun ω => 1 / 2 + (X ω - m) ^ 2 * c) P ∧
      ∀ ω, |(H ω : ℝ) - X ω| ≤ 1 / 2 + (X ω - m) ^ 2 * c := by
  have hD : MemLp (fun ω => X ω - m) 2 P := hX.sub (memLp_const m)
  have hi2 : Integrable (fun ω => (X ω - m) ^ 2) P := hD.integrable_sq
  have hXi : Integrable X P := hX.integrable (by norm_num)
  have hpoint : ∀ ω, |(H ω : ℝ) - X ω| ≤ 1 / 2 + (X ω - m) ^ 2 * c := by
    intro ω
    have h1 := hH ω
    have h2 := hg (X ω)
    have h3 := abs_add_le ((H ω : ℝ) - g (X ω)) (g (X ω) - X ω)
    rw [sub_add_sub_cancel] at h3
    linarith
  have hB : Integrable (fun ω => 1 / 2 + (X ω - m) ^ 2 * c) P := (integrable_const _).add (hi2.mul_const _)
  have hHm : Measurable (fun ω => (H ω : ℝ)) := (measurable_of_countable (fun k : ℤ => (k : ℝ))).comp hmeas
  have hdiff : Integrable (fun ω => (H ω : ℝ) - X ω) P :=
    hB.mono' (hHm.aestronglyMeasurable.sub hXi.1) (Filter.Eventually.of_forall (fun ω => by simpa using hpoint ω))
  refine ⟨?_, hB, hpoint⟩
  have := hdiff.add hXi
  refine this.congr (Filter.Eventually.of_forall (fun ω => ?_))
  simp

/-- A count near a clipped number `g`, where clipping moves a number by at most `c` times its squared distance from the mean, has the mean of the
number up to half a unit and `c` times the variance. -/
theorem near_mean {P : Measure Ω} [IsProbabilityMeasure P] {X : Ω → ℝ} {H : Ω → ℤ} {g : ℝ → ℝ} {m c v : ℝ} (hX : MemLp X 2 P)
    (hmeas : Measurable H) (hc : 0 ≤ c) (hg : ∀ x, |g x - x| ≤ (x - m) ^ 2 * c) (hmean : ∫ ω, X ω ∂P = m)
    (hv : ∫ ω, (X ω - m) ^ 2 ∂P ≤ v) (hH : ∀ ω, |(H ω : ℝ) - g (X ω)| ≤ 1 / 2) :
    Integrable (fun ω => (H ω : ℝ)) P ∧ |∫ ω, (H ω : ℝ) ∂P - m| ≤ 1 / 2 + v * c := by
  obtain ⟨hHi, hB, hpoint⟩ := near_integrable hX hmeas hg hH
  have hD : MemLp (fun ω => X ω - m) 2 P := hX.sub (memLp_const m)
  have hi2 : Integrable (fun ω => (X ω - m) ^ 2) P := hD.integrable_sq
  have hXi : Integrable X P := hX.integrable (by norm_num)
  refine ⟨hHi, ?_⟩
  rw [← hmean, ← integral_sub hHi hXi]
  refine (abs_integral_le_integral_abs).trans ?_
  refine (integral_mono (hHi.sub hXi).abs hB hpoint).trans ?_
  rw [integral_add (integrable_const _) (hi2.mul_const _), integral_mul_const]
  simp only [integral_const, probReal_univ, smul_eq_mul, one_mul]
  have := mul_le_mul_of_nonneg_right hv hc
  linarith

theorem low_near {x m : ℝ} (h0 : 0 ≤ m) : |max x 0 - m| ≤ |x - m| := by
  rcases le_total x 0 with c | c
  · rw [max_eq_right c, abs_of_nonpos (by linarith), abs_of_nonpos (by linarith)]
    linarith
  · rw [max_eq_left c]

theorem low_moves {x m : ℝ} (h0 : 0 < m) : |max x 0 - x| ≤ (x - m) ^ 2 * (1 / (4 * m)) := by
  rcases le_total x 0 with c | c
  · rw [max_eq_right c, abs_of_nonneg (by linarith), mul_one_div, le_div_iff₀ (by linarith)]
    nlinarith [sq_nonneg (x + m)]
  · rw [max_eq_left c, sub_self, abs_zero]
    positivity

theorem both_near {x m n : ℝ} (h0 : 0 ≤ m) (hn : m ≤ n) : |min (max x 0) n - m| ≤ |x - m| := by
  refine le_trans ?_ (low_near (x := x) h0)
  rcases le_total (max x 0) n with d | d
  · rw [min_eq_left d]
  · rw [min_eq_right d, abs_of_nonneg (by linarith), abs_of_nonneg (by linarith)]
    linarith

/-- A normal number has finite second moment, its mean and its variance. -/
theorem line_moments (m s : ℝ) : MemLp (fun z => z * s + m) 2 (gaussianReal 0 1) ∧ ∫ z, z * s + m ∂(gaussianReal 0 1) = m ∧
    ∫ z, (z * s + m - m) ^ 2 ∂(gaussianReal 0 1) = s ^ 2 := by
  have hid : MemLp (fun z : ℝ => z) 2 (gaussianReal 0 1) := memLp_id_gaussianReal (μ := 0) (v := 1) 2
  have h1 : Integrable (fun z : ℝ => z) (gaussianReal 0 1) := by simpa using N_int_pow 1
  have h2 : ∫ z : ℝ, z ∂(gaussianReal 0 1) = 0 := by simpa using N_odd 1 (by decide)
  refine ⟨(hid.mul_const s).add (memLp_const m), ?_, ?_⟩
  · rw [integral_add (h1.mul_const s) (integrable_const _), integral_mul_const, h2]
    simp
  · have := hermite_sq s 0 0
    simp only [zero_mul, add_zero, zero_pow (two_ne_zero), mul_zero] at this
    rw [← this]
    congr 1
    ext z
    ring

theorem xsqrt_fin {v : ℝ} (hv : 0 ≤ v) : xsqrt (.fin v) = .fin (√v) := by simp [xsqrt, not_lt.2 hv]

theorem jmax_fin (a b : ℝ) : jmax (.fin a) (.fin b) = .fin (max a b) := by
  simp only [jmax, XF.fin_lt_fin]
  split_ifs with h
  · rw [max_eq_right h.le]
  · rw [max_eq_left (not_lt.1 h)]

/-- The count of a normal draw cut off at zero. -/
theorem roundInt_low (r : Rounding) (big : Nat) (z m : ℝ) {v : ℝ} (hv : 0 ≤ v) :
    roundInt r big (truncLow z (.fin m) (xsqrt (.fin v)) (.fin 0)) = r.fn (max (z * √v + m) 0) := by
  rw [xsqrt_fin hv, truncLow, normal, XF.fin_mul_fin, XF.fin_add_fin, jmax_fin]
  rfl

theorem roundInt_both (r : Rounding) (big : Nat) (z m : ℝ) {v : ℝ} (hv : 0 ≤ v) :
    roundInt r big (trunc z (.fin m) (xsqrt (.fin v)) (.fin 0) .pinf) = r.fn (max (z * √v + m) 0) := by
  rw [xsqrt_fin hv, trunc, clip, normal, XF.fin_mul_fin, XF.fin_add_fin, jmin_pinf, jmax_fin]
  rfl

/-- Mean and spread of the count of a normal draw cut off at zero. -/
theorem low_count (r : Rounding) (hr : ∀ y, |(r.fn y : ℝ) - y| ≤ 1 / 2) {m v : ℝ} (hm : 0 < m) (hv : 0 ≤ v) :
    Integrable (fun z => ((r.fn (max (z * √v + m) 0) : ℤ) : ℝ)) (gaussianReal 0 1) ∧
    |∫ z, ((r.fn (max (z * √v + m) 0) : ℤ) : ℝ) ∂(gaussianReal 0 1) - m| ≤ 1 / 2 + v / (4 * m) ∧
    ∫ z, (((r.fn (max (z * √v + m) 0) : ℤ) : ℝ) - m) ^ 2 ∂(gaussianReal 0 1) ≤ (√v + 1 / 2) ^ 2 := by
  obtain ⟨h1, h2, h3⟩ := line_moments m (√v)
  rw [Real.sq_sqrt hv] at h3
  have hmeas : Measurable (fun z : ℝ => r.fn (max (z * √v + m) 0)) :=
    r.mono.measurable.comp ((measurable_id.mul_const _).add_const _ |>.max measurable_const)
  have a := near_mean (g := fun x => max x 0) h1 hmeas (by positivity : (0 : ℝ) ≤ 1 / (4 * m)) (fun x => low_moves hm) h2 h3.le (fun z => hr _)
  refine ⟨a.1, ?_, near_rms (g := fun x => max x 0) h1 (fun x => low_near hm.le) h3.le (fun z => hr _)⟩
  have := a.2
  rwa [mul_one_div] at this

/-- Clipping an integer after rounding. -/
theorem round_clip (r : Rounding) (hr : ∀ y, |(r.fn y : ℝ) - y| ≤ 1 / 2) (x : ℝ) (n : ℤ) (hn : 0 ≤ n) :
    |((clipInt (r.fn x) 0 n : ℤ) : ℝ) - min (max x 0) n| ≤ 1 / 2 := by
  have h := hr x
  have hn' : (0 : ℝ) ≤ n := by exact_mod_cast hn
  unfold clipInt
  push_cast
  rw [abs_le] at h ⊢
  constructor
  · rcases le_total (r.fn x : ℝ) 0 with c | c <;> rcases le_total x 0 with d | d <;> simp only [max_def, min_def] <;> split_ifs <;> linarith
  · rcases le_total (r.fn x : ℝ) 0 with c | c <;> rcases le_total x 0 with d | d <;> simp only [max_def, min_def] <;> split_ifs <;> linarith

/-- The count of a normal draw whose variance is `f` times its mean, cut off at zero. -/
theorem fano_count (r : Rounding) (hr : ∀ y, |(r.fn y : ℝ) - y| ≤ 1 / 2) {m f : ℝ} (hm : 0 ≤ m) (hf : 0 ≤ f) :
    Integrable (fun z => ((r.fn (max (z * √(f * m) + m) 0) : ℤ) : ℝ)) (gaussianReal 0 1) ∧
    |∫ z, ((r.fn (max (z * √(f * m) + m) 0) : ℤ) : ℝ) ∂(gaussianReal 0 1) - m| ≤ 1 / 2 + f / 4 ∧
    ∫ z, (((r.fn (max (z * √(f * m) + m) 0) : ℤ) : ℝ) - m) ^ 2 ∂(gaussianReal 0 1) ≤ (√(f * m) + 1 / 2) ^ 2 := by
  rcases hm.eq_or_lt with h | h
  · subst h
    have h0 : r.fn 0 = 0 := by simpa using r.int 0
    simp [h0]
    positivity
  · have := low_count r hr h (mul_nonneg hf hm)
    have e : f * m / (4 * m) = f / 4 := by field_simp
    rw [e] at this
    exact this

/-- The draw of the NR electrons is a skewed line with the mean and variance asked for. -/
theorem electronDraw_line (alpha2 recombProb : ℝ) {v : ℝ} (hv : 0 ≤ v) (ni : ℤ) :
    ∃ k loc : ℝ, (∀ z0 z1, electronDrawNR z0 z1 alpha2 (.fin recombProb) (.fin v) ni = .fin (k * (alpha2 * |z0| + z1) + loc))
      ∧ k * alpha2 * A + loc = (1 - recombProb) * ni ∧ k ^ 2 * (1 + alpha2 ^ 2 * (1 - 2 / Real.pi)) = v := by
  have hq : 0 < 1 + alpha2 ^ 2 := by positivity
  have hin : 0 < 1 - (2 / Real.pi) * alpha2 ^ 2 / (1 + alpha2 ^ 2) := by
    have h2 : 2 / Real.pi < 1 := by
      rw [div_lt_one Real.pi_pos]
      linarith [Real.pi_gt_three]
    rw [sub_pos, div_lt_one hq]
    have := sq_nonneg alpha2
    nlinarith
  have hw : 0 < √(1 - (2 / Real.pi) * alpha2 ^ 2 / (1 + alpha2 ^ 2)) := Real.sqrt_pos.2 hin
  have hw2 : √(1 - (2 / Real.pi) * alpha2 ^ 2 / (1 + alpha2 ^ 2)) ^ 2 = 1 - (2 / Real.pi) * alpha2 ^ 2 / (1 + alpha2 ^ 2) :=
    Real.sq_sqrt hin.le
  have hD2 : √(1 + alpha2 ^ 2) ^ 2 = 1 + alpha2 ^ 2 := Real.sq_sqrt hq.le
  have hv2 : √v ^ 2 = v := Real.sq_sqrt hv
  have hApi : 2 * (1 / √(2 * Real.pi)) = A := by
    rw [A_eq, sqrt_two_pi]
    have hs2 : √2 ≠ 0 := (Real.sqrt_pos.2 (by norm_num)).ne'
    have hp : √Real.pi ≠ 0 := (Real.sqrt_pos.2 Real.pi_pos).ne'
    field_simp
  refine ⟨√v / √(1 - (2 / Real.pi) * alpha2 ^ 2 / (1 + alpha2 ^ 2)) / √(1 + alpha2 ^ 2),
    (1 - recombProb) * ni - √v / √(1 - (2 / Real.pi) * alpha2 ^ 2 / (1 + alpha2 ^ 2)) * (alpha2 / √(1 + alpha2 ^ 2)) * A, ?_, ?_, ?_⟩
  · intro z0 z1
    unfold electronDrawNR skewnormal
    simp only [xsqrt_fin hv, XF.fin_div_fin_of_ne _ hw.ne', XF.fin_mul_fin, XF.fin_sub_fin, XF.fin_add_fin]
    congr 1
    rw [← hApi]
    ring
  · ring
  · rw [div_pow, div_pow, hv2, hw2, hD2]
    have h1 : 1 + alpha2 ^ 2 ≠ 0 := hq.ne'
    have h2 : (1 - 2 / Real.pi * alpha2 ^ 2 / (1 + alpha2 ^ 2)) * (1 + alpha2 ^ 2) = 1 + alpha2 ^ 2 * (1 - 2 / Real.pi) := by
      field_simp
      ring
    rw [div_div, h2]
    have h3 : 1 + alpha2 ^ 2 * (1 - 2 / Real.pi) ≠ 0 := by
      rw [← h2]
      exact mul_ne_zero hin.ne' h1
    exact div_mul_cancel₀ _ h3

/-- Moments of a skewed line over two independent standard normal numbers. -/
theorem skew_line_moments (a k loc : ℝ) :
    MemLp (fun p : ℝ × ℝ => k * (a * |p.1| + p.2) + loc) 2 (N.prod N) ∧
    ∫ p, (fun p : ℝ × ℝ => k * (a * |p.1| + p.2) + loc) p ∂(N.prod N) = k * a * A + loc ∧
    ∫ p, ((fun p : ℝ × ℝ => k * (a * |p.1| + p.2) + loc) p - (k * a * A + loc)) ^ 2 ∂(N.prod N) = k ^ 2 * (1 + a ^ 2 * (1 - 2 / Real.pi)) := by
  have hid : MemLp (fun z : ℝ => z) 2 N := memLp_id_gaussianReal (μ := 0) (v := 1) 2
  have h1 : MemLp (fun p : ℝ × ℝ => |p.1|) 2 (N.prod N) := (hid.abs).comp_measurePreserving measurePreserving_fst
  have h2 : MemLp (fun p : ℝ × ℝ => p.2) 2 (N.prod N) := hid.comp_measurePreserving measurePreserving_snd
  have hX : MemLp (fun p : ℝ × ℝ => k * (a * |p.1| + p.2) + loc) 2 (N.prod N) :=
    (((h1.const_mul a).add h2).const_mul k).add (memLp_const loc)
  refine ⟨hX, ?_, ?_⟩
  · rw [integral_prod _ (hX.integrable (by norm_num))]
    exact skew_mean a k loc
  · have hD : MemLp (fun p : ℝ × ℝ => k * (a * |p.1| + p.2) + loc - (k * a * A + loc)) 2 (N.prod N) := hX.sub (memLp_const _)
    rw [integral_prod _ hD.integrable_sq]
    rw [← skew_var a k]
    congr 1
    ext z0
    congr 1
    ext z1
    ring

theorem both_count {Ω : Type} [MeasurableSpace Ω] {P : Measure Ω} [IsProbabilityMeasure P] (r : Rounding)
    (hr : ∀ y, |(r.fn y : ℝ) - y| ≤ 1 / 2) {X : Ω → ℝ} (hXm : Measurable X) {q v : ℝ} {n : ℤ} (hX : MemLp X 2 P) (hn : 0 < n) (q0 : 0 < q) (q1 : q < 1)
    (hmean : ∫ ω, X ω ∂P = q * n) (hv : ∫ ω, (X ω - q * n) ^ 2 ∂P = v) :
    Integrable (fun ω => ((clipInt (r.fn (X ω)) 0 n : ℤ) : ℝ)) P ∧
    |∫ ω, ((clipInt (r.fn (X ω)) 0 n : ℤ) : ℝ) ∂P - q * n| ≤ 1 / 2 + v / (4 * (q * (1 - q)) * n) ∧
    ∫ ω, (((clipInt (r.fn (X ω)) 0 n : ℤ) : ℝ) - q * n) ^ 2 ∂P ≤ (√v + 1 / 2) ^ 2 := by
  have hn' : (0 : ℝ) < n := by exact_mod_cast hn
  have m0 : 0 < q * n := by positivity
  have m1 : q * n < n := by nlinarith
  have hmeas : Measurable (fun ω => clipInt (r.fn (X ω)) 0 n) :=
    (measurable_of_countable (fun k : ℤ => clipInt k 0 n)).comp (r.mono.measurable.comp hXm)
  have hc : (n : ℝ) / (4 * (q * n) * (n - q * n)) = 1 / (4 * (q * (1 - q)) * n) := by
    have h1 : (1 - q) ≠ 0 := by linarith
    have e : (n : ℝ) - q * n = (1 - q) * n := by ring
    rw [e]
    field_simp
  have h := near_mean (g := fun x => min (max x 0) n) (v := v) hX hmeas (c := n / (4 * (q * n) * (n - q * n)))
    (by have : 0 < (n : ℝ) - q * n := by linarith
        positivity) (fun x => clip_moves m0 m1) hmean hv.le (fun ω => round_clip r hr _ n hn.le)
  rw [hc, mul_one_div] at h
  exact ⟨h.1, h.2, near_rms (g := fun x => min (max x 0) n) hX (fun x => both_near m0.le m1.le) hv.le (fun ω => round_clip r hr _ n hn.le)⟩

end Verif.Plugins
