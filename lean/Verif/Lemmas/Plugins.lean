/-
Helper lemmas about the array functions the plugins use.
-/
import Verif.Spec.Plugins

namespace Verif.Plugins
open Verif

theorem Rounding.nonneg (r : Rounding) {x : ℝ} (h : 0 ≤ x) : 0 ≤ r.fn x := by
  have h1 := r.mono h
  have h2 := r.int 0
  rw [Int.cast_zero] at h2
  omega

theorem jmax_zero_cases (x : XF) : jmax x (.fin 0) = .nan ∨ jmax x (.fin 0) = .pinf ∨ ∃ y, 0 ≤ y ∧ jmax x (.fin 0) = .fin y := by
  cases x with
  | nan => left; rfl
  | ninf => right; right; exact ⟨0, le_refl _, by simp [jmax]⟩
  | pinf => right; left; simp [jmax]
  | fin a =>
    right; right
    by_cases h : a < 0
    · exact ⟨0, le_refl _, by simp [jmax, h]⟩
    · exact ⟨a, not_lt.1 h, by simp [jmax, h]⟩

theorem jmin_pinf (x : XF) : jmin x .pinf = x := by
  cases x <;> simp [jmin]
  intro h; exact absurd h (fun h => h)

theorem roundInt_jmax (r : Rounding) (big : Nat) (x : XF) : 0 ≤ roundInt r big (jmax x (.fin 0)) := by
  rcases jmax_zero_cases x with h | h | ⟨y, hy, h⟩ <;> rw [h]
  · exact le_refl _
  · exact Int.natCast_nonneg _
  · exact r.nonneg hy

theorem roundInt_truncLow (r : Rounding) (big : Nat) (z : ℝ) (m s : XF) : 0 ≤ roundInt r big (truncLow z m s (.fin 0)) :=
  roundInt_jmax r big _

theorem roundInt_trunc (r : Rounding) (big : Nat) (z : ℝ) (m s : XF) : 0 ≤ roundInt r big (trunc z m s (.fin 0) .pinf) := by
  unfold trunc clip
  rw [jmin_pinf]
  exact roundInt_jmax r big _

theorem clipInt_range {x n : ℤ} (h : 0 ≤ n) : 0 ≤ clipInt x 0 n ∧ clipInt x 0 n ≤ n := by
  unfold clipInt
  omega

theorem clip_prob (x : XF) (h : x ≠ .nan) : IsProb (clip x (.fin 0) (.fin 1)) := by
  unfold clip
  cases x with
  | nan => exact absurd rfl h
  | ninf => exact ⟨0, by simp [jmax, jmin], le_refl _, zero_le_one⟩
  | pinf => exact ⟨1, by simp [jmax, jmin], zero_le_one, le_refl _⟩
  | fin a =>
    by_cases h0 : a < 0
    · exact ⟨0, by simp [jmax, jmin, h0], le_refl _, zero_le_one⟩
    · by_cases h1 : 1 < a
      · exact ⟨1, by simp [jmax, jmin, h0, h1], zero_le_one, le_refl _⟩
      · exact ⟨a, by simp [jmax, jmin, h0, h1], not_lt.1 h0, not_lt.1 h1⟩

theorem clip_nan (x : XF) : clip x (.fin 0) (.fin 1) = .nan ↔ x = .nan := by
  constructor
  · intro h
    by_contra hx
    obtain ⟨y, hy, _⟩ := clip_prob x hx
    rw [hy] at h
    cases h
  · rintro rfl; rfl

theorem IsProb.mul {a b : XF} (ha : IsProb a) (hb : IsProb b) : IsProb (a * b) := by
  obtain ⟨x, rfl, hx0, hx1⟩ := ha
  obtain ⟨y, rfl, hy0, hy1⟩ := hb
  exact ⟨x * y, rfl, mul_nonneg hx0 hy0, mul_le_one₀ hx1 hy0 hy1⟩

end Verif.Plugins
