/-
Lemmas for C147: the log likelihood along a line of proportional rates.
-/
import Verif.Spec.Scale
import Verif.Lemmas.Peak
import Verif.Lemmas.TruthAll
import Mathlib.Probability.Distributions.Gamma

namespace Verif.Llh
open Verif Comp

theorem logLAtRates_factor (bins : Bins ℝ) (data : List (List (Option ℝ))) (ss : List (Sample ℝ)) (rs : List ℝ) (u : ℝ) (hu : 0 < u)
    (hp : ∀ b ∈ binList bins, 0 < atRates ss rs b) :
    logLAtRates bins data ss (rs.map (u * ·)) =
      logLAtRates bins data ss rs + observed bins data * Real.log u - (u - 1) * ((binList bins).map (atRates ss rs)).sum := by
  unfold logLAtRates observed
  simp only [atRates_scale]
  generalize binList bins = l at hp
  induction l with
  | nil => simp
  | cons b bs ih =>
    simp only [List.map_cons, List.sum_cons]
    rw [ih fun b' hb' => hp b' (by simp [hb']), Real.log_mul hu.ne' (hp b (by simp)).ne']
    ring

section
variable {K : Type}

theorem logLAll_factor {u : ℝ} (hu : 0 < u) {q0 q : PyDict String ℝ} {fs : List (Fitted K)} {sss : List (List (Sample ℝ))}
    (hs : Scaled u fs q0 q) (hp : AllPositive q0 fs sss) :
    logLAll q fs sss = logLAll q0 fs sss + observedAll fs * Real.log u - (u - 1) * expectedAll q0 fs sss := by
  unfold logLAll observedAll expectedAll
  induction hp with
  | nil => simp
  | @cons f ss fs sss h _ ih =>
    simp only [List.zipWith_cons_cons, List.map_cons, List.sum_cons]
    rw [ih fun f' hf' => hs f' (by simp [hf']), hs f (by simp), logLAtRates_factor f.bins f.data ss _ u hu h]
    ring

theorem allPositive_factor {u : ℝ} {q0 q : PyDict String ℝ} {fs : List (Fitted K)} {sss : List (List (Sample ℝ))}
    (hs : Scaled u fs q0 q) (hp : AllPositive q0 fs sss) (hu : 0 < u) : AllPositive q fs sss := by
  unfold AllPositive at hp ⊢
  induction hp with
  | nil => exact .nil
  | @cons f ss fs sss h _ ih =>
    refine .cons ?_ (ih fun f' hf' => hs f' (by simp [hf']))
    intro b hb
    rw [hs f (by simp), atRates_scale]
    exact mul_pos hu (h b hb)

theorem expectedAll_factor {u : ℝ} {q0 q : PyDict String ℝ} {fs : List (Fitted K)} (sss : List (List (Sample ℝ)))
    (hs : Scaled u fs q0 q) : expectedAll q fs sss = u * expectedAll q0 fs sss := by
  unfold expectedAll
  induction fs generalizing sss with
  | nil => simp
  | cons f fs ih =>
    cases sss with
    | nil => simp
    | cons ss sss =>
      simp only [List.zipWith_cons_cons, List.sum_cons]
      rw [ih sss fun f' hf' => hs f' (by simp [hf']), hs f (by simp), mul_add]
      congr 1
      rw [← List.sum_map_mul_left]
      congr 1
      exact List.map_congr_left fun b _ => atRates_scale _ _ _ _

/-- Rates that are not positive multiples leave some bin without expected events. -/
theorem not_allPositive {u : ℝ} (hu : u ≤ 0) {q0 q : PyDict String ℝ} {fs : List (Fitted K)} {sss : List (List (Sample ℝ))}
    (hs : Scaled u fs q0 q) (hp : AllPositive q0 fs sss) (he : expectedAll q0 fs sss ≠ 0) : ¬ AllPositive q fs sss := by
  unfold AllPositive expectedAll at *
  intro hq
  apply he
  clear he
  induction hp with
  | nil => rfl
  | @cons f ss fs sss h _ ih =>
    cases hq with
    | cons h' hq' =>
      simp only [List.zipWith_cons_cons, List.sum_cons]
      rw [ih (fun f' hf' => hs f' (by simp [hf'])) hq', add_zero]
      have : binList f.bins = [] := by
        rw [List.eq_nil_iff_forall_not_mem]
        intro b hb
        have := h' b hb
        rw [hs f (by simp), atRates_scale] at this
        nlinarith [h b hb]
      simp [this]

theorem meanOf_factor (n : Nat) (hn : 0 < n) (g h : Nat → ℝ) (a b : ℝ) :
    meanOf n (fun i => g i + a - b * h i) = meanOf n g + a - b * meanOf n h := by
  have hn' : (n : ℝ) ≠ 0 := by exact_mod_cast hn.ne'
  rw [meanOf_eq, meanOf_eq, meanOf_eq, Finset.sum_sub_distrib, Finset.sum_add_distrib, ← Finset.mul_sum]
  simp only [Finset.sum_const, Finset.card_range, nsmul_eq_mul]
  field_simp

/-- The log likelihood along a line of proportional rates has one maximum. -/
theorem factor_max {N M : ℝ} (hN : 0 < N) (hM : 0 < M) (u : ℝ) (hu : 0 < u) :
    N * Real.log u - u * M ≤ N * Real.log (N / M) - N ∧ (N * Real.log u - u * M = N * Real.log (N / M) - N ↔ u = N / M) := by
  have hx : 0 < u * M / N := by positivity
  have e : Real.log u = Real.log (u * M / N) + Real.log (N / M) := by
    rw [← Real.log_mul hx.ne' (by positivity)]
    congr 1
    field_simp
  have e2 : u * M = N * (u * M / N) := by field_simp
  have e3 : N * Real.log u - u * M = N * (Real.log (u * M / N) - u * M / N) + N * Real.log (N / M) := by
    rw [e]
    linear_combination -e2
  have hlog := Real.log_le_sub_one_of_pos hx
  constructor
  · rw [e3]
    nlinarith
  · constructor
    · intro h
      by_contra hne
      have hne' : u * M / N ≠ 1 := by
        intro h1
        apply hne
        field_simp at h1 ⊢
        exact h1
      have := Real.log_lt_sub_one_of_pos hx hne'
      rw [e3] at h
      nlinarith
    · rintro rfl
      field_simp

end
end Verif.Llh
