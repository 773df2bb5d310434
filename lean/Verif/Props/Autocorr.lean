/-
Property theorems C76 about the autocorrelation time (plot.py).
-/
import Verif.Lemmas.Autocorr

namespace Verif.Plot
open Verif

/-- **C76**: the estimate computed with Fourier transforms is the direct sum of lagged products, divided by the constant
`4 n`; the zero padding is enough at every length. -/
theorem C76_fft_is_direct_sum (x : List ℝ) (m : Nat) (hm : m < x.length) :
    (autocorrRaw x).length = x.length ∧ (autocorrRaw x).getD m 0 = lagSum x m / (4 * nextPowTwo x.length) :=
  ⟨by simp [autocorrRaw], autocorrRaw_lag x m hm⟩

/-- **C76**: for a chain that is not constant the normalised estimate is the autocorrelation: lag `m` over lag 0; it is
1 at lag 0 and never exceeds 1 in size. -/
theorem C76_normalised (x : List ℝ) (h : ∃ v ∈ x, v ≠ mean x) (m : Nat) (hm : m < x.length) :
    0 < lagSum x 0 ∧ (autocorr x).getD m 0 = lagSum x m / lagSum x 0 ∧ (autocorr x).getD 0 0 = 1 ∧
      |(autocorr x).getD m 0| ≤ 1 := by
  have hpos := lagSum_pos x h
  refine ⟨hpos, autocorr_lag x m hm, ?_, ?_⟩
  · rw [autocorr_lag x 0 (by omega), div_self hpos.ne']
  · rw [autocorr_lag x m hm, abs_div, abs_of_pos hpos, div_le_one hpos]
    exact lagSum_le x m hm.le

example : ∃ v ∈ ([0, 1] : List ℝ), v ≠ mean [0, 1] := ⟨0, by simp, by simp [mean]⟩

/-- **C76**: a constant chain has no autocorrelation: everything that would be divided, and the divisor, is zero. -/
theorem C76_constant_chain (x : List ℝ) (h : ∀ v ∈ x, v = mean x) (m : Nat) (hm : m < x.length) :
    (autocorrRaw x).getD m 0 = 0 := by
  rw [autocorrRaw_lag x m hm]
  have : lagSum x m = 0 := by
    refine Finset.sum_eq_zero fun j hj => ?_
    rw [Finset.mem_range] at hj
    have hj' : j < x.length := by omega
    rw [List.getD_eq_getElem?_getD, List.getElem?_eq_getElem hj']
    rw [Option.getD_some, h _ (List.getElem_mem hj')]
    ring
  rw [this, zero_div]

/-- **C76**: whatever the chains of the walkers are, as long as none is constant, a window is always found: index 0 is
below the criterion, and the last index never is, because all lags of a chain cancel.  The reported time is
`1 + 2 Σ_{k=1}^{w} ρ(k)` with the autocorrelation averaged over walkers and `w` the first index with `w ≥ c τ(w)`. -/
theorem C76_reported_time (n : Nat) (y : List (List ℝ)) (c : ℝ) (hc : 0 < c) (hn : 1 ≤ n) (hy : y ≠ [])
    (hlen : ∀ row ∈ y, row.length = n) (hvar : ∀ row ∈ y, ∃ v ∈ row, v ≠ mean row) :
    ∃ w, 1 ≤ w ∧ w < n ∧ autocorrNew n y c = some (tau y w) ∧ c * tau y w ≤ w ∧
      ∀ i < w, (i : ℝ) < c * tau y i := by
  obtain ⟨w, hw, h1, h2, h3, h4⟩ := window_exists n y c hc hn hy hlen hvar
  refine ⟨w, h1, h2, ?_, h3, h4⟩
  rw [autocorrNew, hw]
  exact tauList_get n y hy hlen hvar w h2

/-- **C59**, the window in use: for chains none of which is constant the mask has a failing index, and the window is the
first one. -/
theorem C59_window_in_use (n : Nat) (y : List (List ℝ)) (c : ℝ) (hc : 0 < c) (hn : 1 ≤ n) (hy : y ≠ [])
    (hlen : ∀ row ∈ y, row.length = n) (hvar : ∀ row ∈ y, ∃ v ∈ row, v ≠ mean row) :
    ∃ w, autoWindow (windowMask c (tauList n y)) = some w ∧ 1 ≤ w ∧ w < n ∧ c * tau y w ≤ w ∧
      ∀ i < w, (i : ℝ) < c * tau y i := window_exists n y c hc hn hy hlen hvar

/-- **C76**: for two iterations the window is the last index and the reported time is 0. -/
example : autocorrNew 2 [[0, 1], [3, 5]] 5 = some 0 := by
  have hv : ∀ row ∈ ([[0, 1], [3, 5]] : List (List ℝ)), ∃ v ∈ row, v ≠ mean row := by
    intro row hr
    simp at hr
    rcases hr with rfl | rfl
    · exact ⟨0, by simp, by simp [mean]⟩
    · exact ⟨3, by simp, by norm_num [mean]⟩
  obtain ⟨w, h1, h2, h3, _⟩ := C76_reported_time 2 [[0, 1], [3, 5]] 5 (by norm_num) (by norm_num) (by simp) (by simp) hv
  have : w = 1 := by omega
  subst this
  rw [h3]
  exact congrArg some (tau_last 2 _ (by norm_num) (by simp) (by simp) hv)

end Verif.Plot
