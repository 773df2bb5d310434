/-
C108: simulations without a given key use their own random numbers.
-/
import Verif.Lemmas.Keys
import Verif.Model.Context
import Mathlib.Tactic.Linarith
import Mathlib.Tactic.NormNum
import Mathlib.Data.Finset.Card
import Mathlib.Data.Fintype.Card
import Mathlib.Data.Int.Interval
import Mathlib.Order.Interval.Finset.Nat

namespace Verif.Keys
open Verif

/-! ### Seeds -/

/-- **C108, given seeds.** The key is that of the seed whatever the clock reads, and different seeds give different keys: 64-bit seeds
if 64-bit numbers are enabled, seeds from 0 to 2³² - 1 otherwise. -/
theorem C108_seed_partial (x64 : Bool) (s s' : Int) (t t' : ℚ)
    (h : if x64 then (-(2 ^ 63) ≤ s ∧ s < 2 ^ 63) ∧ (-(2 ^ 63) ≤ s' ∧ s' < 2 ^ 63) else (0 ≤ s ∧ s < 2 ^ 32) ∧ (0 ≤ s' ∧ s' < 2 ^ 32)) :
    getKey x64 (some s) t = getKey x64 (some s) t' ∧ (getKey x64 (some s) t).isSome ∧
      (getKey x64 (some s) t = getKey x64 (some s') t' ↔ s = s') := by
  refine ⟨rfl, ?_, ?_⟩
  · cases x64 with
    | true => rw [if_pos rfl] at h; simp [getKey, prngKey_x64 s h.1.1 h.1.2]
    | false =>
      rw [if_neg (by decide)] at h
      simp [getKey, prngKey_x32 s (by omega) (by omega)]
  · cases x64 with
    | true =>
      rw [if_pos rfl] at h
      simp only [getKey, prngKey_x64 s h.1.1 h.1.2, prngKey_x64 s' h.2.1 h.2.2, Option.some.injEq, Prod.mk.injEq]
      omega
    | false =>
      rw [if_neg (by decide)] at h
      simp only [getKey, prngKey_x32 s (by omega) (by omega), prngKey_x32 s' (by omega) (by omega), Option.some.injEq, Prod.mk.injEq, true_and]
      omega

/-- **C108 does not hold for other seeds.** Without 64-bit numbers, seeds that differ by a multiple of 2³² give the same key, so that
the seeds -1 and 4294967295 do; seeds that are no 64-bit numbers are refused. -/
theorem C108_seeds_coincide (s : Int) (k : Int) (t t' : ℚ) (h : -(2 ^ 63) ≤ s ∧ s < 2 ^ 63) (h' : -(2 ^ 63) ≤ s + k * 2 ^ 32 ∧ s + k * 2 ^ 32 < 2 ^ 63) :
    getKey false (some s) t = getKey false (some (s + k * 2 ^ 32)) t' := by
  simp only [getKey, prngKey_x32 s h.1 h.2, prngKey_x32 _ h'.1 h'.2, Option.some.injEq, Prod.mk.injEq, true_and]
  omega

theorem C108_refused_seed (x64 : Bool) (s : Int) (t : ℚ) : getKey x64 (some s) t = none ↔ s < -(2 ^ 63) ∨ 2 ^ 63 ≤ s := by
  unfold getKey prngKey
  simp only
  split
  · simp_all
  · cases x64 <;> simp_all

/-! ### The clock -/

/-- **C108, within an hour.** Evaluations that begin at least a microsecond apart, all within 2³² - 1 microseconds (71 minutes), or at
any time if 64-bit numbers are enabled, start from different keys. -/
theorem C108_clock_partial (x64 : Bool) (readings : List ℚ) (hp : ∀ t ∈ readings, Possible t) (ha : Apart readings)
    (hw : x64 = true ∨ ∀ t ∈ readings, ∀ t' ∈ readings, (t' - t) * 1000000 ≤ 2 ^ 32 - 1) : (evaluationKeys x64 readings).Nodup := by
  unfold evaluationKeys
  rw [List.Nodup, List.pairwise_map]
  refine List.Pairwise.imp_of_mem ?_ ha
  intro t t' ht ht' hd
  have hlt := clock_differ (hp t ht) (hp t' ht') hd
  have b := (clockSeed_of_possible (hp t ht)).2
  have b' := (clockSeed_of_possible (hp t' ht')).2
  cases x64 with
  | true =>
    simp only [getKey, prngKey_x64 _ (by omega) b.2, prngKey_x64 _ (by omega) b'.2, ne_eq, Option.some.injEq, Prod.mk.injEq]
    omega
  | false =>
    have hn := clock_near (hp t ht) (hp t' ht') (by
      rcases hw with h | h
      · cases h
      · exact h t ht t' ht')
    simp only [getKey, prngKey_x32 _ (by omega) b.2, prngKey_x32 _ (by omega) b'.2, ne_eq, Option.some.injEq, Prod.mk.injEq, true_and]
    omega

/-- **C108 does not hold within a microsecond.** Evaluations that begin in the same microsecond, as in parallel processes, start from
the same key. -/
theorem C108_same_microsecond (x64 : Bool) (t t' : ℚ) (h : clockSeed t = clockSeed t') : getKey x64 none t = getKey x64 none t' := by
  simp only [getKey, h]

/-- **C108 does not hold for longer sessions.** Without 64-bit numbers, which is the default, the keys repeat every 2³² microseconds. -/
theorem C108_period (t : ℚ) (k : ℕ) (h : Possible t) (h' : Possible (t + k * 2 ^ 32 / 1000000)) :
    getKey false none t = getKey false none (t + k * 2 ^ 32 / 1000000) := by
  have e : clockSeed (t + k * 2 ^ 32 / 1000000) = clockSeed t + k * 2 ^ 32 := by
    rw [(clockSeed_of_possible h).1, (clockSeed_of_possible h').1]
    have : (t + k * 2 ^ 32 / 1000000) * 1000000 = t * 1000000 + ((k * 2 ^ 32 : Int) : ℚ) := by push_cast; ring
    rw [this, Int.floor_add_intCast]
  have b := (clockSeed_of_possible h).2
  have b' := (clockSeed_of_possible h').2
  rw [e] at b'
  simp only [getKey, e, prngKey_x32 _ (show -(2 ^ 63) ≤ clockSeed t by omega) b.2, prngKey_x32 _ (show -(2 ^ 63) ≤ clockSeed t + k * 2 ^ 32 by omega) b'.2, Option.some.injEq, Prod.mk.injEq, true_and]
  omega

/-- **C108, how many there are.** Without 64-bit numbers, among more than 2³² evaluations two start from the same key, however the clock
runs. -/
theorem C108_pigeonhole (readings : List ℚ) (hp : ∀ t ∈ readings, Possible t) (hl : 2 ^ 32 < readings.length) :
    ¬ (evaluationKeys false readings).Nodup := by
  intro hn
  let S : Finset (Option Words) := (Finset.Ico (0 : Int) (2 ^ 32)).image (fun x => some (0, x))
  have hsub : (evaluationKeys false readings).toFinset ⊆ S := by
    intro k hk
    rw [List.mem_toFinset] at hk
    obtain ⟨t, ht, rfl⟩ := List.mem_map.1 hk
    have b := (clockSeed_of_possible (hp t ht)).2
    simp only [getKey, prngKey_x32 _ (show -(2 ^ 63) ≤ clockSeed t by omega) b.2]
    refine Finset.mem_image.2 ⟨clockSeed t % 2 ^ 32, ?_, rfl⟩
    rw [Finset.mem_Ico]
    omega
  have h1 := Finset.card_le_card hsub
  have h2 : S.card ≤ 2 ^ 32 := by
    refine Finset.card_image_le.trans ?_
    rw [Int.card_Ico]
    norm_num
  rw [List.toFinset_card_of_nodup hn] at h1
  unfold evaluationKeys at h1
  rw [List.length_map] at h1
  omega

/-- **C108, what this means.** Two evaluations of the posterior at the same parameters, in the same state, whose repeats begin at times
with equal keys, are equal: they are not independent estimates. -/
theorem C108_equal_posteriors (x64 : Bool) (sig : Parameter.Solver) (order : List String) (c : Ctx.Ctx (Option Words)) (params : Parameter.Keys)
    (batch repeats : Int) (clock clock' : Nat → ℚ) (h : ∀ i, getKey x64 none (clock i) = getKey x64 none (clock' i)) :
    Ctx.logPosterior sig order (fun i => getKey x64 none (clock i)) c params batch repeats =
      Ctx.logPosterior sig order (fun i => getKey x64 none (clock' i)) c params batch repeats := by
  rw [funext h]

/-! ### Examples -/

/-- A session of ten seconds on a day in 2026, and one evaluation 71 minutes and 35 seconds later. -/
example : (evaluationKeys false [1794870000, 1794870001, 1794870010]).Nodup :=
  C108_clock_partial false _ (by intro t ht; simp at ht; rcases ht with rfl | rfl | rfl <;> (constructor <;> norm_num))
    (by unfold Apart; norm_num)
    (.inr (by intro t ht t' ht'; simp at ht ht'; rcases ht with rfl | rfl | rfl <;> rcases ht' with rfl | rfl | rfl <;> norm_num))
example : getKey false none 1794870000 = getKey false none (1794870000 + 4294967296 / 1000000) := by decide +kernel
example : getKey true none 1794870000 ≠ getKey true none (1794870000 + 4294967296 / 1000000) := by decide +kernel
example : getKey false (some (-1)) 0 = some (0, 4294967295) ∧ getKey false (some 4294967295) 0 = some (0, 4294967295) := by decide +kernel
example : getKey true (some 0) 0 ≠ getKey true (some (2 ^ 32)) 0 := by decide +kernel
example : getKey false (some 137) 5 = some (0, 137) ∧ getKey false (some (2 ^ 63)) 0 = none := by decide +kernel
example : clockSeed (1 / 3000000) = clockSeed (2 / 3000000) := by decide +kernel
example : Possible 1794870000 ∧ Possible (1794870000 + (2 : ℕ) * 2 ^ 32 / 1000000) := by
  constructor <;> constructor <;> norm_num

end Verif.Keys
