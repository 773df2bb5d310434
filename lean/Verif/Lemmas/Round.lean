/-
Rounding to single precision keeps the order (for C120).
-/
import Verif.Lemmas.Single

namespace Verif.Single
open Verif

theorem halfEven_floor (q : ℝ) : ⌊q⌋ ≤ halfEven q ∧ halfEven q ≤ ⌊q⌋ + 1 := by
  unfold halfEven
  split
  · omega
  · split
    · omega
    · split <;> omega

theorem halfEven_mono {p q : ℝ} (h : p ≤ q) : halfEven p ≤ halfEven q := by
  have hf := Int.floor_le_floor h
  rcases lt_or_eq_of_le hf with hlt | heq
  · have h1 := (halfEven_floor p).2
    have h2 := (halfEven_floor q).1
    omega
  · unfold halfEven
    rw [← heq]
    have hp : p - ⌊p⌋ ≤ q - ⌊p⌋ := by linarith
    split_ifs <;> first | omega | (exfalso; linarith)

theorem halfEven_neg (q : ℝ) : halfEven (-q) = -halfEven q := by
  by_cases hz : (⌊q⌋ : ℝ) = q
  · have h1 := halfEven_int ⌊q⌋
    have h2 := halfEven_int (-⌊q⌋)
    push_cast at h2
    rw [hz] at h1 h2
    rw [h1, h2]
  · have h0 : (⌊q⌋ : ℝ) < q := lt_of_le_of_ne (Int.floor_le q) hz
    have h1 := Int.lt_floor_add_one q
    have hf : ⌊-q⌋ = -⌊q⌋ - 1 := by
      rw [Int.floor_eq_iff]
      push_cast
      constructor <;> linarith
    unfold halfEven
    rw [hf]
    push_cast
    have he : Even (-⌊q⌋ - 1) ↔ ¬ Even ⌊q⌋ := by
      rw [Int.even_sub_one, even_neg]
    simp only [he]
    split_ifs <;> first | omega | (exfalso; linarith)

theorem rnd_neg (x : ℝ) : rnd (-x) = -rnd x := by
  unfold rnd
  have hu : ulp (-x) = ulp x := by unfold ulp; rw [abs_neg]
  rw [hu, neg_div, halfEven_neg]
  push_cast
  ring

theorem rnd_pos_bounds {x : ℝ} (hx : 0 < x) : (2 : ℝ) ^ Int.log 2 x ≤ rnd x ∧ rnd x ≤ 2 ^ (Int.log 2 x + 1) := by
  have h1 : (2 : ℝ) ^ Int.log 2 x ≤ x := Int.zpow_log_le_self (by norm_num) hx
  have h2 : x < (2 : ℝ) ^ (Int.log 2 x + 1) := Int.lt_zpow_succ_log_self (by norm_num) x
  have hu : ulp x = 2 ^ (Int.log 2 x - 23) := by unfold ulp; rw [abs_of_pos hx]
  have hp := ulp_pos x
  have e1 : ((2 ^ 23 : ℤ) : ℝ) * ulp x = 2 ^ Int.log 2 x := by
    rw [hu, zpow_sub₀ (by norm_num)]; norm_num; ring
  have e2 : ((2 ^ 24 : ℤ) : ℝ) * ulp x = 2 ^ (Int.log 2 x + 1) := by
    rw [hu, zpow_sub₀ (by norm_num), zpow_add₀ (by norm_num)]; norm_num; ring
  unfold rnd
  constructor
  · rw [← e1]
    apply mul_le_mul_of_nonneg_right _ hp.le
    have : halfEven ((2 ^ 23 : ℤ) : ℝ) ≤ halfEven (x / ulp x) := halfEven_mono (by rw [le_div_iff₀ hp, e1]; exact h1)
    rw [halfEven_int] at this
    exact_mod_cast this
  · rw [← e2]
    apply mul_le_mul_of_nonneg_right _ hp.le
    have : halfEven (x / ulp x) ≤ halfEven ((2 ^ 24 : ℤ) : ℝ) := halfEven_mono (by rw [div_le_iff₀ hp, e2]; exact h2.le)
    rw [halfEven_int] at this
    exact_mod_cast this

theorem rnd_mono_pos {x y : ℝ} (hx : 0 < x) (h : x ≤ y) : rnd x ≤ rnd y := by
  have hy : 0 < y := hx.trans_le h
  have hl : Int.log 2 x ≤ Int.log 2 y := Int.log_mono_right hx h
  rcases lt_or_eq_of_le hl with hlt | heq
  · calc rnd x ≤ 2 ^ (Int.log 2 x + 1) := (rnd_pos_bounds hx).2
      _ ≤ 2 ^ Int.log 2 y := zpow_le_zpow_right₀ (by norm_num) (by omega)
      _ ≤ rnd y := (rnd_pos_bounds hy).1
  · have hu : ulp x = ulp y := by unfold ulp; rw [abs_of_pos hx, abs_of_pos hy, heq]
    unfold rnd
    rw [hu]
    have hp := ulp_pos y
    apply mul_le_mul_of_nonneg_right _ hp.le
    exact_mod_cast halfEven_mono (div_le_div_of_nonneg_right h hp.le)

theorem rnd_nonneg' {x : ℝ} (hx : 0 ≤ x) : 0 ≤ rnd x := by
  have := (rnd_bounds x hx).1
  have h : (0 : ℝ) ≤ (1 - 1 / 2 ^ 24) * x := mul_nonneg (by norm_num) hx
  linarith

theorem rnd_mono {x y : ℝ} (h : x ≤ y) : rnd x ≤ rnd y := by
  rcases lt_or_ge 0 x with hx | hx
  · exact rnd_mono_pos hx h
  · rcases lt_or_ge y 0 with hy | hy
    · have := rnd_mono_pos (x := -y) (y := -x) (by linarith) (by linarith)
      rw [rnd_neg, rnd_neg] at this
      linarith
    · have h1 := rnd_nonneg' hy
      have h2 := rnd_nonneg' (x := -x) (by linarith)
      rw [rnd_neg] at h2
      linarith

/-- A number closest to a multiple of its unit in the last place is rounded to it. -/
theorem rnd_close {x : ℝ} (e j : ℤ) (h1 : (2 : ℝ) ^ e ≤ x) (h2 : x < 2 ^ (e + 1))
    (hj : |x - j * 2 ^ (e - 23)| < 2 ^ (e - 23) / 2) : rnd x = j * 2 ^ (e - 23) := by
  have hx : 0 < x := lt_of_lt_of_le (zpow_pos (by norm_num) _) h1
  have hlog : Int.log 2 |x| = e := by
    rw [abs_of_pos hx]
    have a : e ≤ Int.log 2 x := (Int.zpow_le_iff_le_log (by norm_num) hx).1 (by exact_mod_cast h1)
    have b : Int.log 2 x < e + 1 := (Int.lt_zpow_iff_log_lt (by norm_num) hx).1 (by exact_mod_cast h2)
    omega
  have hu : ulp x = 2 ^ (e - 23) := by unfold ulp; rw [hlog]
  have hup : (0 : ℝ) < 2 ^ (e - 23) := zpow_pos (by norm_num) _
  have hq : |x / ulp x - j| < 1 / 2 := by
    rw [hu, show x / (2 : ℝ) ^ (e - 23) - j = (x - j * 2 ^ (e - 23)) / 2 ^ (e - 23) by field_simp, abs_div, abs_of_pos hup,
      div_lt_iff₀ hup]
    linarith
  have hh := halfEven_near (x / ulp x)
  have hn : halfEven (x / ulp x) = j := by
    have h3 := abs_sub_le (halfEven (x / ulp x) : ℝ) (x / ulp x) j
    have h4 : |((halfEven (x / ulp x) - j : ℤ) : ℝ)| < 1 := by push_cast; linarith
    rw [← Int.cast_abs] at h4
    have h5 : |halfEven (x / ulp x) - j| < 1 := by exact_mod_cast h4
    have := Int.abs_lt_one_iff.1 h5
    omega
  unfold rnd
  rw [hn, hu]

/-- A rounded number is not changed by rounding. -/
theorem rnd_rnd (x : ℝ) : rnd (rnd x) = rnd x := by
  have pos : ∀ y : ℝ, 0 < y → rnd (rnd y) = rnd y := by
    intro y hy
    obtain ⟨h1, h2⟩ := rnd_pos_bounds hy
    have hup : (0 : ℝ) < 2 ^ (Int.log 2 y - 23) := zpow_pos (by norm_num) _
    have hval : rnd y = halfEven (y / ulp y) * 2 ^ (Int.log 2 y - 23) := by
      conv_lhs => unfold rnd
      congr 1
      unfold ulp
      rw [abs_of_pos hy]
    rcases lt_or_eq_of_le h2 with hlt | heq
    · have := rnd_close (x := rnd y) (Int.log 2 y) (halfEven (y / ulp y)) h1 hlt (by rw [← hval, sub_self, abs_zero]; linarith)
      rw [this, ← hval]
    · have e2 : rnd y = ((2 ^ 23 : ℤ) : ℝ) * 2 ^ (Int.log 2 y + 1 - 23) := by
        rw [heq, zpow_sub₀ (by norm_num)]
        push_cast
        norm_num
        ring
      have := rnd_close (x := rnd y) (Int.log 2 y + 1) (2 ^ 23) heq.ge
        (by rw [heq]; exact zpow_lt_zpow_right₀ (by norm_num) (by omega))
        (by rw [← e2, sub_self, abs_zero]; have : (0 : ℝ) < 2 ^ (Int.log 2 y + 1 - 23) := zpow_pos (by norm_num) _; linarith)
      rw [this, ← e2]
  rcases lt_trichotomy x 0 with h | h | h
  · have := pos (-x) (by linarith)
    rw [rnd_neg, rnd_neg] at this
    linarith
  · rw [h, rnd_zero, rnd_zero]
  · exact pos x h

end Verif.Single
