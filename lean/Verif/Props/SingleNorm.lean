/-
C118: in single precision a normalised template keeps its shape and its expected number of events up to a few roundings.
-/
import Verif.Lemmas.SingleNorm
import Mathlib.Data.Nat.Prime.Int

namespace Verif.Single
open Verif

theorem scaled_within (o : Order) (rate : ℝ) (hr : 0 ≤ rate) (hc : ∀ c ∈ o.contents, 0 ≤ c.val)
    (ht : 0 < (o.contents.map F32.val).sum) (c : F32) (h : c ∈ o.contents) :
    0 ≤ (scale32 (factorOnPdf o rate) c).val ∧
      Within (o.depth + 4) (scale32 (factorOnPdf o rate) c).val (rate * c.val / (o.contents.map F32.val).sum) := by
  obtain ⟨_, w⟩ := o.within hc
  have hs : 0 < o.sum.val := lt_of_lt_of_le (mul_pos (pow_pos low_pos _) ht) w.1
  have hcc := hc c h
  have hi : 0 < 1 / o.sum.val := by positivity
  have w1 := (within_rnd hi.le).trans (w.inv hs ht)
  have w2 := w1.mul (within_rnd hr) (rnd_nonneg hi.le) (by positivity) (rnd_nonneg hr) hr
  have hp : 0 ≤ rnd (1 / o.sum.val) * rnd rate := mul_nonneg (rnd_nonneg hi.le) (rnd_nonneg hr)
  have w3 := (within_rnd hp).trans w2
  have w4 := (Within.refl c.val).mul w3 hcc hcc (rnd_nonneg hp) (by positivity)
  have hq : 0 ≤ c.val * rnd (rnd (1 / o.sum.val) * rnd rate) := mul_nonneg hcc (rnd_nonneg hp)
  have w5 := (within_rnd hq).trans w4
  refine ⟨rnd_nonneg hq, ?_⟩
  have e : 1 + (0 + (1 + (1 + o.depth + 1))) = o.depth + 4 := by omega
  rw [e] at w5
  have e' : c.val * (1 / (o.contents.map F32.val).sum * rate) = rate * c.val / (o.contents.map F32.val).sum := by ring
  rw [e'] at w5
  exact w5

/-- Every bin of a template that is normalised on its sum is that share of the rate, up to roundings. -/
theorem C118_shape (o : Order) (rate : ℝ) (hr : 0 ≤ rate) (hc : ∀ c ∈ o.contents, 0 ≤ c.val)
    (ht : 0 < (o.contents.map F32.val).sum) (hd : o.depth + 4 ≤ 2 ^ 23) (c : F32) (h : c ∈ o.contents) :
    |(scale32 (factorOnPdf o rate) c).val - rate * c.val / (o.contents.map F32.val).sum|
      ≤ (o.depth + 4) / 2 ^ 23 * (rate * c.val / (o.contents.map F32.val).sum) := by
  obtain ⟨h0, w⟩ := scaled_within o rate hr hc ht c h
  have hcc := hc c h
  simpa using w.linear hd h0 (by positivity)

/-- The expected number of events of the template is the rate, up to roundings, in whatever order the contents are added up. -/
theorem C118_events (o : Order) (rate : ℝ) (hr : 0 ≤ rate) (hc : ∀ c ∈ o.contents, 0 ≤ c.val)
    (ht : 0 < (o.contents.map F32.val).sum) (hd : o.depth + 4 ≤ 2 ^ 23) :
    |(o.contents.map fun c => (scale32 (factorOnPdf o rate) c).val).sum - rate| ≤ (o.depth + 4) / 2 ^ 23 * rate := by
  have key : ∀ l : List F32, (∀ c ∈ l, c ∈ o.contents) →
      0 ≤ (l.map fun c => (scale32 (factorOnPdf o rate) c).val).sum ∧
      Within (o.depth + 4) (l.map fun c => (scale32 (factorOnPdf o rate) c).val).sum
        (rate * (l.map F32.val).sum / (o.contents.map F32.val).sum) := by
    intro l hl
    induction l with
    | nil => simp [Within]
    | cons c l ih =>
      obtain ⟨h0, w⟩ := scaled_within o rate hr hc ht c (hl c (by simp))
      obtain ⟨h0', w'⟩ := ih fun d hd => hl d (by simp [hd])
      simp only [List.map_cons, List.sum_cons]
      refine ⟨add_nonneg h0 h0', ?_⟩
      have := w.add w'
      rwa [show rate * (c.val + (l.map F32.val).sum) / (o.contents.map F32.val).sum
        = rate * c.val / (o.contents.map F32.val).sum + rate * (l.map F32.val).sum / (o.contents.map F32.val).sum from by ring]
  obtain ⟨h0, w⟩ := key _ fun _ h => h
  rw [mul_div_assoc, div_self ht.ne', mul_one] at w
  simpa using w.linear hd h0 hr

/-- Normalised on the simulation, every bin is its content times rate over batch size, up to two roundings. -/
theorem C118_on_sim (batch : Nat) (rate : ℝ) (hr : 0 ≤ rate) (c : F32) (hc : 0 ≤ c.val) :
    |(scale32 (factorOnSim batch rate) c).val - c.val * rate / batch| ≤ 2 / 2 ^ 23 * (c.val * rate / batch) := by
  have hf : 0 ≤ 1 / (batch : ℝ) * rate := by positivity
  have w := (Within.refl c.val).mul (within_rnd hf) hc hc (rnd_nonneg hf) hf
  have hq : 0 ≤ c.val * rnd (1 / (batch : ℝ) * rate) := mul_nonneg hc (rnd_nonneg hf)
  have w' := (within_rnd hq).trans w
  have e : c.val * (1 / (batch : ℝ) * rate) = c.val * rate / batch := by ring
  rw [e] at w'
  exact_mod_cast w'.linear (by norm_num) (rnd_nonneg hq) (by positivity)

/-- Three bins of one event each, as in the examples. -/
noncomputable def exOrder : Order := .add (.add (.leaf ⟨1⟩) (.leaf ⟨1⟩)) (.leaf ⟨1⟩)

-- its contents are added up to 3, and the hypotheses of the theorems hold
example : (∀ c ∈ exOrder.contents, 0 ≤ c.val) ∧ (exOrder.contents.map F32.val).sum = 3 ∧ exOrder.depth = 2 := by
  refine ⟨?_, ?_, rfl⟩
  · simp [exOrder, Order.contents]
  · simp only [exOrder, Order.contents, List.append_eq, List.cons_append, List.nil_append, List.map_cons, List.map_nil, List.sum_cons, List.sum_nil]
    norm_num

theorem three_mul_dyadic (m z : ℤ) : (3 : ℝ) * (m * 2 ^ z) ≠ 1 := by
  intro h
  obtain ⟨n, rfl | rfl⟩ := z.eq_nat_or_neg
  · have h' : (3 : ℤ) * (m * 2 ^ n) = 1 := by exact_mod_cast h
    omega
  · rw [zpow_neg, zpow_natCast] at h
    have h2 : (2 : ℝ) ^ n ≠ 0 := by positivity
    have h' : (3 : ℝ) * m = 2 ^ n := by field_simp at h; linarith
    have h'' : (3 : ℤ) * m = 2 ^ n := by exact_mod_cast h'
    have d : (3 : ℤ) ∣ 2 ^ n := ⟨m, h''.symm⟩
    have := Int.prime_three.dvd_of_dvd_pow d
    omega

/-- It is not the rate exactly: three equal bins never have one event in total. -/
theorem C118_differs : ∃ (o : Order) (rate : ℝ), 0 < rate ∧ (∀ c ∈ o.contents, 0 < c.val) ∧
    (o.contents.map fun c => (scale32 (factorOnPdf o rate) c).val).sum ≠ rate := by
  refine ⟨exOrder, 1, one_pos, by simp [exOrder, Order.contents], ?_⟩
  generalize factorOnPdf exOrder 1 = f
  have e : (exOrder.contents.map fun c => (scale32 f c).val).sum = 3 * rnd (1 * f.val) := by
    simp only [exOrder, Order.contents, List.append_eq, List.cons_append, List.nil_append, List.map_cons, List.map_nil, List.sum_cons, List.sum_nil, scale32]
    ring
  rw [e]
  exact three_mul_dyadic _ _

end Verif.Single
