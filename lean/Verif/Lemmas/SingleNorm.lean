/-
Lemmas for C118: products of roundings.
-/
import Verif.Model.SingleNorm
import Verif.Lemmas.Single
import Mathlib.Algebra.Order.Ring.Pow

namespace Verif.Single
open Verif

/-- `x` is `y` up to `k` roundings. -/
def Within (k : Nat) (x y : ℝ) : Prop := (1 - 1 / 2 ^ 24 : ℝ) ^ k * y ≤ x ∧ (1 - 1 / 2 ^ 24 : ℝ) ^ k * x ≤ y

theorem Within.refl (x : ℝ) : Within 0 x x := by simp [Within]

theorem low_pos : (0 : ℝ) < 1 - 1 / 2 ^ 24 := by norm_num
theorem low_le : (1 - 1 / 2 ^ 24 : ℝ) ≤ 1 := by norm_num

theorem within_rnd {x : ℝ} (hx : 0 ≤ x) : Within 1 (rnd x) x := by
  have h := rnd_bounds x hx
  refine ⟨by simpa using h.1, ?_⟩
  calc (1 - 1 / 2 ^ 24 : ℝ) ^ 1 * rnd x ≤ (1 - 1 / 2 ^ 24) * ((1 + 1 / 2 ^ 24) * x) := by
        rw [pow_one]; exact mul_le_mul_of_nonneg_left h.2 low_pos.le
    _ ≤ x := by nlinarith

theorem Within.trans {j k : Nat} {x y z : ℝ} (h : Within j x y) (g : Within k y z) : Within (j + k) x z := by
  have hj : (0 : ℝ) ≤ (1 - 1 / 2 ^ 24) ^ j := by have := low_pos; positivity
  have hk : (0 : ℝ) ≤ (1 - 1 / 2 ^ 24) ^ k := by have := low_pos; positivity
  constructor
  · calc (1 - 1 / 2 ^ 24 : ℝ) ^ (j + k) * z = (1 - 1 / 2 ^ 24) ^ j * ((1 - 1 / 2 ^ 24) ^ k * z) := by rw [pow_add]; ring
      _ ≤ (1 - 1 / 2 ^ 24) ^ j * y := mul_le_mul_of_nonneg_left g.1 hj
      _ ≤ x := h.1
  · calc (1 - 1 / 2 ^ 24 : ℝ) ^ (j + k) * x = (1 - 1 / 2 ^ 24) ^ k * ((1 - 1 / 2 ^ 24) ^ j * x) := by rw [pow_add]; ring
      _ ≤ (1 - 1 / 2 ^ 24) ^ k * y := mul_le_mul_of_nonneg_left h.2 hk
      _ ≤ z := g.2

theorem Within.mono {j k : Nat} {x y : ℝ} (h : Within j x y) (hjk : j ≤ k) (hx : 0 ≤ x) (hy : 0 ≤ y) : Within k x y := by
  have hp : (1 - 1 / 2 ^ 24 : ℝ) ^ k ≤ (1 - 1 / 2 ^ 24) ^ j := pow_le_pow_of_le_one low_pos.le low_le hjk
  exact ⟨(mul_le_mul_of_nonneg_right hp hy).trans h.1, (mul_le_mul_of_nonneg_right hp hx).trans h.2⟩

theorem Within.add {k : Nat} {x y x' y' : ℝ} (h : Within k x y) (g : Within k x' y') : Within k (x + x') (y + y') := by
  constructor
  · rw [mul_add]; exact add_le_add h.1 g.1
  · rw [mul_add]; exact add_le_add h.2 g.2

theorem Within.mul {j k : Nat} {x y x' y' : ℝ} (h : Within j x y) (g : Within k x' y') (hx : 0 ≤ x) (hy : 0 ≤ y) (hx' : 0 ≤ x') (hy' : 0 ≤ y') :
    Within (j + k) (x * x') (y * y') := by
  have hj : (0 : ℝ) ≤ (1 - 1 / 2 ^ 24) ^ j := by have := low_pos; positivity
  have hk : (0 : ℝ) ≤ (1 - 1 / 2 ^ 24) ^ k := by have := low_pos; positivity
  constructor
  · calc (1 - 1 / 2 ^ 24 : ℝ) ^ (j + k) * (y * y') = ((1 - 1 / 2 ^ 24) ^ j * y) * ((1 - 1 / 2 ^ 24) ^ k * y') := by rw [pow_add]; ring
      _ ≤ x * x' := mul_le_mul h.1 g.1 (mul_nonneg hk hy') hx
  · calc (1 - 1 / 2 ^ 24 : ℝ) ^ (j + k) * (x * x') = ((1 - 1 / 2 ^ 24) ^ j * x) * ((1 - 1 / 2 ^ 24) ^ k * x') := by rw [pow_add]; ring
      _ ≤ y * y' := mul_le_mul h.2 g.2 (mul_nonneg hk hx') hy

theorem Within.inv {k : Nat} {x y : ℝ} (h : Within k x y) (hx : 0 < x) (hy : 0 < y) : Within k (1 / x) (1 / y) := by
  constructor
  · rw [mul_one_div, div_le_div_iff₀ hy hx, one_mul]
    exact h.2
  · rw [mul_one_div, div_le_div_iff₀ hx hy, one_mul]
    exact h.1

theorem rnd_nonneg {x : ℝ} (hx : 0 ≤ x) : 0 ≤ rnd x := le_trans (mul_nonneg low_pos.le hx) (rnd_bounds x hx).1

theorem rnd_pos {x : ℝ} (hx : 0 < x) : 0 < rnd x := lt_of_lt_of_le (mul_pos low_pos hx) (rnd_bounds x hx.le).1

/-- A sum in any order. -/
theorem Order.within (o : Order) (h : ∀ c ∈ o.contents, 0 ≤ c.val) :
    0 ≤ o.sum.val ∧ Within o.depth o.sum.val (o.contents.map F32.val).sum := by
  induction o with
  | leaf c =>
    have := h c (by simp [Order.contents])
    simpa [Order.sum, Order.contents, Order.depth, Within] using this
  | add a b iha ihb =>
    simp only [Order.contents, List.mem_append] at h
    obtain ⟨ha, wa⟩ := iha fun c hc => h c (.inl hc)
    obtain ⟨hb, wb⟩ := ihb fun c hc => h c (.inr hc)
    have sa : 0 ≤ (a.contents.map F32.val).sum := List.sum_nonneg (by simp only [List.mem_map]; rintro _ ⟨c, hc, rfl⟩; exact h c (.inl hc))
    have sb : 0 ≤ (b.contents.map F32.val).sum := List.sum_nonneg (by simp only [List.mem_map]; rintro _ ⟨c, hc, rfl⟩; exact h c (.inr hc))
    have e : (Order.add a b).sum.val = rnd (a.sum.val + b.sum.val) := rfl
    rw [e]
    refine ⟨rnd_nonneg (by linarith), ?_⟩
    have w := (wa.mono (le_max_left a.depth b.depth) ha sa).add (wb.mono (le_max_right a.depth b.depth) hb sb)
    have := (within_rnd (x := a.sum.val + b.sum.val) (by linarith)).trans w
    rw [Nat.add_comm] at this
    simpa [Order.contents, Order.depth] using this

/-- A bound that is linear in the number of roundings. -/
theorem Within.linear {k : Nat} {x y : ℝ} (h : Within k x y) (hk : k ≤ 2 ^ 23) (hx : 0 ≤ x) (hy : 0 ≤ y) :
    |x - y| ≤ k / 2 ^ 23 * y := by
  have hb : (1 : ℝ) + k * (-(1 / 2 ^ 24)) ≤ (1 + -(1 / 2 ^ 24)) ^ k := one_add_mul_le_pow (by norm_num) k
  have hk' : (k : ℝ) ≤ 2 ^ 23 := by exact_mod_cast hk
  have hb' : (1 : ℝ) - k / 2 ^ 24 ≤ (1 - 1 / 2 ^ 24) ^ k := by
    have e : (1 : ℝ) + -(1 / 2 ^ 24) = 1 - 1 / 2 ^ 24 := by ring
    rw [e] at hb
    linarith
  have hlow : (0 : ℝ) ≤ k := by positivity
  have h1 := (mul_le_mul_of_nonneg_right hb' hy).trans h.1
  have h2 := (mul_le_mul_of_nonneg_right hb' hx).trans h.2
  have hhalf : (k : ℝ) / 2 ^ 24 ≤ 1 / 2 := by
    rw [div_le_iff₀ (by norm_num)]
    linarith
  have hxy : x ≤ 2 * y := by nlinarith
  rw [abs_le]
  have e23 : (k : ℝ) / 2 ^ 23 = 2 * (k / 2 ^ 24) := by ring
  rw [e23]
  generalize (k : ℝ) / 2 ^ 24 = q at *
  have hq : 0 ≤ q * y := by
    have : 0 ≤ q := by nlinarith
    positivity
  constructor
  · nlinarith
  · nlinarith

end Verif.Single
