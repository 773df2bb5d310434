/-
Helper lemmas for C108.
-/
import Verif.Spec.Keys
import Mathlib.Tactic.Linarith
import Mathlib.Tactic.NormNum

namespace Verif.Keys

theorem clockSeed_of_possible {t : ℚ} (h : Possible t) : clockSeed t = ⌊t * 1000000⌋ ∧ 0 ≤ clockSeed t ∧ clockSeed t < 2 ^ 63 := by
  have h0 : 0 ≤ t * 1000000 := by have := h.1; linarith
  have e : clockSeed t = ⌊t * 1000000⌋ := by unfold clockSeed truncate; rw [if_pos h0]
  refine ⟨e, ?_, ?_⟩
  · rw [e]; exact Int.floor_nonneg.2 h0
  · rw [e, Int.floor_lt]; exact_mod_cast h.2

theorem prngKey_x32 (s : Int) (h0 : -(2 ^ 63) ≤ s) (h1 : s < 2 ^ 63) : prngKey false s = some (0, s % 2 ^ 32) := by
  unfold prngKey
  rw [if_neg (by omega)]
  rfl

theorem prngKey_x64 (s : Int) (h0 : -(2 ^ 63) ≤ s) (h1 : s < 2 ^ 63) : prngKey true s = some (s % 2 ^ 64 / 2 ^ 32, s % 2 ^ 32) := by
  unfold prngKey
  rw [if_neg (by omega)]
  rfl

theorem clock_differ {t t' : ℚ} (h : Possible t) (h' : Possible t') (ha : t + 1 / 1000000 ≤ t') : clockSeed t < clockSeed t' := by
  rw [(clockSeed_of_possible h).1, (clockSeed_of_possible h').1, ← Int.add_one_le_iff, Int.le_floor]
  have := Int.floor_le (t * 1000000)
  push_cast
  linarith

theorem clock_near {t t' : ℚ} (h : Possible t) (h' : Possible t') (hw : (t' - t) * 1000000 ≤ 2 ^ 32 - 1) : clockSeed t' - clockSeed t ≤ 2 ^ 32 - 1 := by
  rw [(clockSeed_of_possible h).1, (clockSeed_of_possible h').1]
  have h1 := Int.floor_le (t' * 1000000)
  have h2 := Int.lt_floor_add_one (t * 1000000)
  have h3 : ((⌊t' * 1000000⌋ - ⌊t * 1000000⌋ : Int) : ℚ) < ((2 ^ 32 : Int) : ℚ) := by
    push_cast
    linarith
  have := Int.cast_lt.1 h3
  omega

end Verif.Keys
