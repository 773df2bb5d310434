/- Helper lemmas about the autocorrelation estimate. -/
import Verif.Lemmas.Plot
import Mathlib.Analysis.SpecialFunctions.Complex.Circle
import Mathlib.Algebra.BigOperators.Intervals
import Mathlib.Algebra.Ring.GeomSum
import Mathlib.Algebra.Order.BigOperators.Group.Finset

namespace Verif.Plot
open Verif

/-! ### The discrete Fourier transform -/

/-- Orthogonality of the characters. -/
theorem exp_sum (N : Nat) (hN : 0 < N) (a : ℤ) :
    ∑ k ∈ Finset.range N, Complex.exp (2 * Real.pi * Complex.I * a / N) ^ k = if (N : ℤ) ∣ a then (N : ℂ) else 0 := by
  have hN0 : (N : ℂ) ≠ 0 := by exact_mod_cast hN.ne'
  have hpi : (2 * Real.pi * Complex.I : ℂ) ≠ 0 := Complex.two_pi_I_ne_zero
  by_cases h : (N : ℤ) ∣ a
  · obtain ⟨b, rfl⟩ := h
    have : Complex.exp (2 * Real.pi * Complex.I * ((N * b : ℤ) : ℂ) / N) = 1 := by
      rw [Complex.exp_eq_one_iff]
      refine ⟨b, ?_⟩
      push_cast
      field_simp
    rw [if_pos (Dvd.intro _ rfl), this]
    simp
  · rw [if_neg h]
    set z := Complex.exp (2 * Real.pi * Complex.I * a / N) with hz
    have hz1 : z ≠ 1 := by
      intro h1
      rw [hz, Complex.exp_eq_one_iff] at h1
      obtain ⟨b, hb⟩ := h1
      apply h
      refine ⟨b, ?_⟩
      have : (2 * Real.pi * Complex.I) * (a : ℂ) = (2 * Real.pi * Complex.I) * (N * b) := by
        field_simp at hb
        linear_combination (2 * Real.pi * Complex.I) * hb
      have := mul_left_cancel₀ hpi this
      exact_mod_cast this
    have hzN : z ^ N = 1 := by
      rw [hz, ← Complex.exp_nat_mul, Complex.exp_eq_one_iff]
      refine ⟨a, ?_⟩
      field_simp
    have := geom_sum_mul z N
    rw [hzN, sub_self] at this
    exact (mul_eq_zero.1 this).resolve_right (sub_ne_zero.2 hz1)

/-- The inverse transform of the power spectrum is the circular autocorrelation. -/
theorem ifft_power (N : Nat) (hN : 0 < N) (y : List ℝ) (m : Nat) :
    ifft N (fun k => fft N y k * (starRingEnd ℂ) (fft N y k)) m
      = ∑ j ∈ Finset.range N, ∑ l ∈ Finset.range N,
        if (N : ℤ) ∣ (l : ℤ) + m - j then ((y.getD j 0 : ℂ) * (y.getD l 0 : ℂ)) else 0 := by
  have hN0 : (N : ℂ) ≠ 0 := by exact_mod_cast hN.ne'
  unfold ifft fft
  have hterm : ∀ k ∈ Finset.range N,
      ((∑ j ∈ Finset.range N, (y.getD j 0 : ℂ) * Complex.exp (-(2 * Real.pi * Complex.I * (j * k : ℕ) / N))) *
        (starRingEnd ℂ) (∑ j ∈ Finset.range N, (y.getD j 0 : ℂ) *
          Complex.exp (-(2 * Real.pi * Complex.I * (j * k : ℕ) / N)))) *
        Complex.exp (2 * Real.pi * Complex.I * (k * m : ℕ) / N)
      = ∑ j ∈ Finset.range N, ∑ l ∈ Finset.range N, ((y.getD j 0 : ℂ) * (y.getD l 0 : ℂ)) *
          Complex.exp (2 * Real.pi * Complex.I * ((l + m - j : ℤ) : ℂ) / N) ^ k := by
    intro k _
    rw [map_sum, Finset.sum_mul_sum, Finset.sum_mul]
    refine Finset.sum_congr rfl fun j _ => ?_
    rw [Finset.sum_mul]
    refine Finset.sum_congr rfl fun l _ => ?_
    rw [map_mul, Complex.conj_ofReal, ← Complex.exp_conj]
    simp only [map_neg, map_div₀, map_mul, Complex.conj_ofReal, Complex.conj_I, map_natCast, map_ofNat]
    rw [show ∀ a b c d e : ℂ, a * b * (c * d) * e = (a * c) * (b * d * e) from fun _ _ _ _ _ => by ring]
    rw [← Complex.exp_add, ← Complex.exp_add, ← Complex.exp_nat_mul]
    congr 2
    push_cast
    field_simp
    ring
  rw [Finset.sum_congr rfl hterm, Finset.sum_comm, Finset.mul_sum]
  refine Finset.sum_congr rfl fun j _ => ?_
  rw [Finset.sum_comm, Finset.mul_sum]
  refine Finset.sum_congr rfl fun l _ => ?_
  rw [← Finset.mul_sum, exp_sum N hN]
  split
  · field_simp
  · simp

theorem getD_beyond (y : List ℝ) (j : Nat) (h : y.length ≤ j) : y.getD j 0 = 0 := by
  rw [List.getD_eq_getElem?_getD, List.getElem?_eq_none h]; rfl

/-- With enough zero padding the circular autocorrelation is the plain one. -/
theorem ifft_lag (N : Nat) (y : List ℝ) (hN : 2 * y.length ≤ N) (m : Nat) (hm : m < y.length) :
    (ifft N (fun k => fft N y k * (starRingEnd ℂ) (fft N y k)) m).re
      = ∑ l ∈ Finset.range (y.length - m), y.getD l 0 * y.getD (l + m) 0 := by
  rw [ifft_power N (by omega), Finset.sum_comm]
  have hinner : ∀ l ∈ Finset.range N, (∑ j ∈ Finset.range N,
      if (N : ℤ) ∣ (l : ℤ) + m - j then ((y.getD j 0 : ℂ) * (y.getD l 0 : ℂ)) else 0)
        = if l < y.length - m then (((y.getD l 0 * y.getD (l + m) 0 : ℝ)) : ℂ) else 0 := by
    intro l hl
    rw [Finset.mem_range] at hl
    by_cases hly : l < y.length
    · have hlm : l + m < N := by omega
      rw [Finset.sum_eq_single (l + m)]
      · rw [if_pos (by push_cast; simp)]
        by_cases h2 : l < y.length - m
        · rw [if_pos h2]; push_cast; ring
        · rw [if_neg h2, getD_beyond y (l + m) (by omega)]; simp
      · intro j hj hne
        rw [Finset.mem_range] at hj
        rw [if_neg]
        rintro ⟨b, hb⟩
        have h1 : b < 1 := by
          by_contra hc
          have : (N : ℤ) * 1 ≤ N * b := by
            apply mul_le_mul_of_nonneg_left <;> omega
          omega
        have h2 : -1 < b := by
          by_contra hc
          have : (N : ℤ) * b ≤ N * (-1) := by
            apply mul_le_mul_of_nonneg_left <;> omega
          omega
        have : b = 0 := by omega
        subst this
        apply hne
        omega
      · intro h; exact absurd (Finset.mem_range.2 hlm) h
    · rw [if_neg (by omega)]
      refine Finset.sum_eq_zero fun j _ => ?_
      rw [getD_beyond y l (by omega)]
      simp
  rw [Finset.sum_congr rfl hinner, ← Finset.sum_filter, ← Complex.ofReal_sum, Complex.ofReal_re]
  refine Finset.sum_congr ?_ fun _ _ => rfl
  ext l
  simp only [Finset.mem_filter, Finset.mem_range]
  omega

theorem getD_centred (x : List ℝ) (c : ℝ) (j : Nat) (h : j < x.length) :
    (x.map (fun v => v - c)).getD j 0 = x.getD j 0 - c := by
  rw [List.getD_eq_getElem?_getD, List.getD_eq_getElem?_getD, List.getElem?_map, List.getElem?_eq_getElem h]
  rfl

theorem getD_map_range' {n i : Nat} (g : Nat → ℝ) (h : i < n) : ((List.range n).map g).getD i 0 = g i := by
  rw [List.getD_eq_getElem?_getD, List.getElem?_map, List.getElem?_range h]
  rfl

theorem autocorrRaw_lag (x : List ℝ) (m : Nat) (hm : m < x.length) :
    (autocorrRaw x).getD m 0 = lagSum x m / (4 * nextPowTwo x.length) := by
  obtain ⟨k, h1, h2, _⟩ := nextPowTwo_spec x.length
  unfold autocorrRaw
  simp only
  rw [getD_map_range' _ hm, ifft_lag]
  · congr 1
    rw [lagSum, List.length_map]
    refine Finset.sum_congr rfl fun j hj => ?_
    rw [Finset.mem_range] at hj
    rw [getD_centred _ _ _ (by omega), getD_centred _ _ _ (by omega)]
  · rw [List.length_map, h1]; omega
  · simpa using hm

theorem nextPowTwo_pos (n : Nat) : 0 < nextPowTwo n := by
  obtain ⟨k, h, _⟩ := nextPowTwo_spec n
  rw [h]; positivity

theorem autocorr_lag (x : List ℝ) (m : Nat) (hm : m < x.length) :
    (autocorr x).getD m 0 = lagSum x m / lagSum x 0 := by
  unfold autocorr
  have hl : (autocorrRaw x).length = x.length := by simp [autocorrRaw]
  have h1 : ((autocorrRaw x).map (fun a => a / (autocorrRaw x).getD 0 0)).getD m 0
      = (autocorrRaw x).getD m 0 / (autocorrRaw x).getD 0 0 := by
    rw [List.getD_eq_getElem?_getD, List.getElem?_map, List.getElem?_eq_getElem (by omega)]
    rw [List.getD_eq_getElem?_getD (l := autocorrRaw x) (i := m), List.getElem?_eq_getElem (by omega)]
    rfl
  rw [h1, autocorrRaw_lag x m hm, autocorrRaw_lag x 0 (by omega)]
  have := nextPowTwo_pos x.length
  have : (4 * (nextPowTwo x.length : ℝ)) ≠ 0 := by positivity
  rw [div_div_div_cancel_right₀ this]

/-! ### Sums of lagged products -/

theorem lag_total (a : Nat → ℝ) (n : Nat) :
    2 * ∑ m ∈ Finset.range n, ∑ j ∈ Finset.range (n - m), a j * a (j + m)
      = (∑ j ∈ Finset.range n, a j) ^ 2 + ∑ j ∈ Finset.range n, a j ^ 2 := by
  induction n with
  | zero => simp
  | succ n ih =>
    have h1 : ∀ m ∈ Finset.range (n + 1), ∑ j ∈ Finset.range (n + 1 - m), a j * a (j + m)
        = (∑ j ∈ Finset.range (n - m), a j * a (j + m)) + a (n - m) * a n := by
      intro m hm
      rw [Finset.mem_range] at hm
      rw [show n + 1 - m = (n - m) + 1 by omega, Finset.sum_range_succ, show n - m + m = n by omega]
    rw [Finset.sum_congr rfl h1, Finset.sum_add_distrib, ← Finset.sum_mul]
    have h2 : ∑ m ∈ Finset.range (n + 1), a (n - m) = ∑ j ∈ Finset.range (n + 1), a j :=
      Finset.sum_flip a
    rw [h2, Finset.sum_range_succ (fun m => ∑ j ∈ Finset.range (n - m), a j * a (j + m)) n]
    simp only [Nat.sub_self, Finset.range_zero, Finset.sum_empty, add_zero]
    rw [mul_add, ih, Finset.sum_range_succ a, Finset.sum_range_succ (fun j => a j ^ 2)]
    ring

theorem sum_getD (x : List ℝ) : ∑ j ∈ Finset.range x.length, x.getD j 0 = x.sum := by
  induction x with
  | nil => simp
  | cons v x ih =>
    rw [List.length_cons, Finset.sum_range_succ', List.sum_cons]
    simp only [List.getD_cons_succ, List.getD_cons_zero]
    rw [ih]; ring

/-- The deviations from the mean sum to zero, so all lags together give nothing. -/
theorem lagSum_total (x : List ℝ) (hx : x ≠ []) :
    2 * ∑ m ∈ Finset.range x.length, lagSum x m = lagSum x 0 := by
  have hlen : (x.length : ℝ) ≠ 0 := by
    have := List.length_pos_iff.2 hx
    exact_mod_cast this.ne'
  have h0 : ∑ j ∈ Finset.range x.length, (x.getD j 0 - mean x) = 0 := by
    rw [Finset.sum_sub_distrib, sum_getD, Finset.sum_const, Finset.card_range, mean, nsmul_eq_mul]
    field_simp
    ring
  have := lag_total (fun j => x.getD j 0 - mean x) x.length
  rw [h0] at this
  unfold lagSum
  rw [this]
  simp only [Nat.sub_zero, Nat.add_zero]
  rw [zero_pow (by norm_num), zero_add]
  exact Finset.sum_congr rfl fun _ _ => by ring

theorem lagSum_zero_nonneg (x : List ℝ) : 0 ≤ lagSum x 0 :=
  Finset.sum_nonneg fun _ _ => mul_self_nonneg _

theorem lagSum_le (x : List ℝ) (m : Nat) (hm : m ≤ x.length) : |lagSum x m| ≤ lagSum x 0 := by
  set a : Nat → ℝ := fun j => x.getD j 0 - mean x with ha
  have h1 : |lagSum x m| ≤ ∑ j ∈ Finset.range (x.length - m), (a j ^ 2 + a (j + m) ^ 2) / 2 := by
    refine (Finset.abs_sum_le_sum_abs _ _).trans (Finset.sum_le_sum fun j _ => ?_)
    rw [abs_mul]
    have := two_mul_le_add_sq |a j| |a (j + m)|
    rw [sq_abs, sq_abs] at this
    simp only [ha] at this ⊢
    linarith
  have h2 : lagSum x 0 = ∑ j ∈ Finset.range x.length, a j ^ 2 := by
    unfold lagSum
    simp only [Nat.sub_zero, Nat.add_zero]
    exact Finset.sum_congr rfl fun _ _ => by rw [ha]; ring
  have h3 : ∑ j ∈ Finset.range (x.length - m), a j ^ 2 ≤ lagSum x 0 := by
    rw [h2]
    refine Finset.sum_le_sum_of_subset_of_nonneg ?_ fun _ _ _ => sq_nonneg _
    intro j hj
    rw [Finset.mem_range] at *
    omega
  have h4 : ∑ j ∈ Finset.range (x.length - m), a (j + m) ^ 2 ≤ lagSum x 0 := by
    rw [h2]
    have : ∑ j ∈ Finset.range x.length, a j ^ 2 = ∑ j ∈ Finset.range m, a j ^ 2
        + ∑ j ∈ Finset.range (x.length - m), a (m + j) ^ 2 := by
      rw [← Finset.sum_range_add, Nat.add_sub_cancel' hm]
    rw [this]
    have h5 : 0 ≤ ∑ j ∈ Finset.range m, a j ^ 2 := Finset.sum_nonneg fun _ _ => sq_nonneg _
    simp only [Nat.add_comm m]
    linarith
  rw [← Finset.sum_div, Finset.sum_add_distrib] at h1
  linarith

/-! ### Cumulative sums -/

theorem cumsumAux_getElem (s : ℝ) (l : List ℝ) (k : Nat) (hk : k < l.length) :
    (cumsumAux s l)[k]? = some (s + ∑ i ∈ Finset.range (k + 1), l.getD i 0) := by
  induction l generalizing s k with
  | nil => simp at hk
  | cons x l ih =>
    cases k with
    | zero => simp [cumsumAux]
    | succ k =>
      rw [cumsumAux, List.getElem?_cons_succ, ih _ _ (by simpa using hk), Finset.sum_range_succ' _ (k + 1)]
      congr 1
      simp only [List.getD_eq_getElem?_getD, List.getElem?_cons_succ, List.getElem?_cons_zero, Option.getD_some]
      ring

theorem length_cumsumAux (s : ℝ) (l : List ℝ) : (cumsumAux s l).length = l.length := by
  induction l generalizing s with
  | nil => rfl
  | cons x l ih => simp [cumsumAux, ih]

theorem lagSum_pos (x : List ℝ) (h : ∃ v ∈ x, v ≠ mean x) : 0 < lagSum x 0 := by
  obtain ⟨v, hv, hne⟩ := h
  obtain ⟨j, hj, rfl⟩ := List.getElem_of_mem hv
  refine Finset.sum_pos' (fun _ _ => mul_self_nonneg _) ⟨j, by simpa using hj, ?_⟩
  rw [Nat.add_zero, List.getD_eq_getElem?_getD, List.getElem?_eq_getElem hj, Option.getD_some]
  exact mul_self_pos.2 (sub_ne_zero.2 hne)

theorem rhoBar_zero (y : List (List ℝ)) (hy : y ≠ []) (hvar : ∀ row ∈ y, ∃ v ∈ row, v ≠ mean row) :
    rhoBar y 0 = 1 := by
  have hl : (y.length : ℝ) ≠ 0 := by
    have := List.length_pos_iff.2 hy
    exact_mod_cast this.ne'
  have : y.map (fun row => lagSum row 0 / lagSum row 0) = y.map (fun _ => (1 : ℝ)) :=
    List.map_congr_left fun row hr => div_self (lagSum_pos row (hvar row hr)).ne'
  rw [rhoBar, this, List.map_const', List.sum_replicate, nsmul_eq_mul, mul_one, div_self hl]

theorem tau_zero (y : List (List ℝ)) (_hy : y ≠ []) (_hlen : ∀ row ∈ y, 1 ≤ row.length)
    (_hvar : ∀ row ∈ y, ∃ v ∈ row, v ≠ mean row) : tau y 0 = 1 := by simp [tau]

theorem tau_eq (y : List (List ℝ)) (hy : y ≠ []) (hvar : ∀ row ∈ y, ∃ v ∈ row, v ≠ mean row) (k : Nat) :
    2 * ∑ i ∈ Finset.range (k + 1), rhoBar y i - 1 = tau y k := by
  rw [Finset.sum_range_succ', rhoBar_zero y hy hvar, tau]
  ring

theorem tauList_get (n : Nat) (y : List (List ℝ)) (hy : y ≠ []) (hlen : ∀ row ∈ y, row.length = n)
    (hvar : ∀ row ∈ y, ∃ v ∈ row, v ≠ mean row) (k : Nat) (hk : k < n) :
    (tauList n y)[k]? = some (tau y k) := by
  rw [tauList, List.getElem?_map, cumsum, cumsumAux_getElem _ _ _ (by simpa using hk), Option.map_some, zero_add,
    ← tau_eq y hy hvar k]
  congr 3
  refine Finset.sum_congr rfl fun i hi => ?_
  rw [Finset.mem_range] at hi
  rw [getD_map_range' _ (by omega : i < n), rhoBar]
  congr 2
  refine List.map_congr_left fun row hr => ?_
  rw [autocorr_lag row i (by rw [hlen row hr]; omega)]

theorem sum_map_comm (y : List (List ℝ)) (g : List ℝ → Nat → ℝ) (s : Finset Nat) :
    ∑ i ∈ s, (y.map (fun row => g row i)).sum = (y.map (fun row => ∑ i ∈ s, g row i)).sum := by
  induction y with
  | nil => simp
  | cons r y ih => simp [Finset.sum_add_distrib, ih]

theorem tau_last (n : Nat) (y : List (List ℝ)) (hn : 1 ≤ n) (hy : y ≠ []) (hlen : ∀ row ∈ y, row.length = n)
    (hvar : ∀ row ∈ y, ∃ v ∈ row, v ≠ mean row) : tau y (n - 1) = 0 := by
  have hl : (y.length : ℝ) ≠ 0 := by
    have := List.length_pos_iff.2 hy
    exact_mod_cast this.ne'
  rw [← tau_eq y hy hvar, show n - 1 + 1 = n by omega]
  unfold rhoBar
  rw [← Finset.sum_div, sum_map_comm y (fun row i => lagSum row i / lagSum row 0)]
  have : y.map (fun row => ∑ i ∈ Finset.range n, lagSum row i / lagSum row 0) = y.map (fun _ => (1 / 2 : ℝ)) := by
    refine List.map_congr_left fun row hr => ?_
    have hp := lagSum_pos row (hvar row hr)
    have := lagSum_total row (by rintro rfl; have := hlen _ hr; simp at this; omega)
    rw [hlen row hr] at this
    rw [← Finset.sum_div]
    field_simp
    linarith
  rw [this, List.map_const', List.sum_replicate, nsmul_eq_mul]
  field_simp
  ring

theorem window_exists (n : Nat) (y : List (List ℝ)) (c : ℝ) (hc : 0 < c) (hn : 1 ≤ n) (hy : y ≠ [])
    (hlen : ∀ row ∈ y, row.length = n) (hvar : ∀ row ∈ y, ∃ v ∈ row, v ≠ mean row) :
    ∃ w, autoWindow (windowMask c (tauList n y)) = some w ∧ 1 ≤ w ∧ w < n ∧ c * tau y w ≤ w ∧
      ∀ i < w, (i : ℝ) < c * tau y i := by
  have htaus : ∀ k, k < n → (tauList n y)[k]? = some (tau y k) := fun k hk => tauList_get n y hy hlen hvar k hk
  have hlist : (tauList n y).length = n := by simp [tauList, cumsum, length_cumsumAux]
  have hmask : ∀ k, k < n → (windowMask c (tauList n y))[k]? = some (decide ((k : ℝ) < c * tau y k)) := by
    intro k hk
    rw [windowMask, List.getElem?_mapIdx, htaus k hk]
    rfl
  have h0 : tau y 0 = 1 := tau_zero y hy (fun row hr => by rw [hlen row hr]; exact hn) hvar
  have hlast : tau y (n - 1) = 0 := tau_last n y hn hy hlen hvar
  have hmlen : (windowMask c (tauList n y)).length = n := by simp [windowMask, hlist]
  have hany : (windowMask c (tauList n y)).any id = true := by
    rw [List.any_eq_true]
    refine ⟨true, List.mem_of_getElem? (i := 0) ?_, rfl⟩
    rw [hmask 0 hn, h0]
    simp [hc]
  have hfalse : false ∈ windowMask c (tauList n y) := by
    refine List.mem_of_getElem? (i := n - 1) ?_
    rw [hmask _ (by omega), hlast]
    simp
  obtain ⟨hw1, hw2⟩ := argminBool_first _ hfalse
  have hwn : argminBool (windowMask c (tauList n y)) < n := by
    exact (List.getElem?_eq_some_iff.1 hw1).1.trans_eq hmlen
  have hw1' := hw1
  rw [hmask _ hwn] at hw1
  simp only [Option.some.injEq, decide_eq_false_iff_not, not_lt] at hw1
  refine ⟨_, by rw [autoWindow, if_pos hany], ?_, hwn, hw1, ?_⟩
  · rw [Nat.one_le_iff_ne_zero]
    intro hz
    rw [hz, h0] at hw1
    simp at hw1
    linarith
  · intro i hi
    have := hw2 i hi
    rw [hmask i (by omega)] at this
    simpa using this

end Verif.Plot
