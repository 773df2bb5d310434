/-
Property theorems of C46 for counts above the threshold: the corrected normal approximation (randgen.py 256-297).
-/
import Verif.Lemmas.BinomialMoments

namespace Verif.Randgen
open Verif MeasureTheory ProbabilityTheory Plugins

variable {m : Nat}

/-- **C46 (large counts).** Above the threshold the draw is a function of one standard normal number with expectation `n * p`,
rounded and then kept between zero and the count; for probabilities above one half the failures are drawn that way. -/
theorem C46_large_count (threshold : Nat) (n : ℤ) (p : ℝ) (hn : (threshold : ℤ) < n) (h0 : 0 < p) (h1 : p < 1) :
    ∃ x : ℝ → ℝ, Integrable x (gaussianReal 0 1) ∧ ∫ z, x z ∂(gaussianReal 0 1) = n * p ∧
      ∀ rnd z u, hybrid rnd threshold p n z u =
        if p ≤ 1 / 2 then min (max (rnd (x z)) 0) n else n - min (max (rnd (n - x z)) 0) n := by
  have hn0 : ¬ n ≤ 0 := by omega
  have hval : ∀ rnd z u, hybrid rnd threshold p n z u = cfPath rnd p n z := by
    intro rnd z u
    unfold hybrid
    simp only
    rw [if_neg (by omega : ¬ n ≤ threshold), if_neg (not_le.2 h0), if_neg (not_le.2 h1), if_neg hn0]
  by_cases hp : p ≤ 1 / 2
  · refine ⟨cornishFisher p n, cornishFisher_integrable p n, cornishFisher_mean p n, fun rnd z u => ?_⟩
    rw [hval, if_pos hp]
    unfold cfPath
    simp only
    rw [if_neg (by norm_num; linarith), if_neg (by norm_num; linarith)]
  · refine ⟨fun z => n - cornishFisher (1 - p) n z, (integrable_const _).sub (cornishFisher_integrable _ n), ?_, fun rnd z u => ?_⟩
    · rw [integral_sub (integrable_const _) (cornishFisher_integrable _ n), cornishFisher_mean]
      simp
      ring
    · rw [hval, if_neg hp, sub_sub_cancel]
      unfold cfPath
      simp only
      rw [if_pos (by norm_num; linarith), if_pos (by norm_num; linarith)]

/-- **C46 (symmetry).** Above the threshold, successes at probability `p` above one half are the failures at `1 - p`, draw by
draw. -/
theorem C46_large_count_symmetric (rnd : ℝ → ℤ) (threshold : Nat) (r : Rng m) (p : Fin m → ℝ) (n : Fin m → ℤ) (s : St)
    (i : Fin m) (hn : (threshold : ℤ) < n i) (h0 : 1 / 2 < p i) (h1 : p i < 1) :
    (binomialHybrid rnd threshold r p n s).1 i = n i - (binomialHybrid rnd threshold r (fun j => 1 - p j) n s).1 i := by
  change hybrid rnd threshold (p i) (n i) _ _ = n i - hybrid rnd threshold (1 - p i) (n i) _ _
  unfold hybrid
  simp only
  rw [if_neg (by omega : ¬ n i ≤ threshold), if_neg (by linarith : ¬ p i ≤ 0), if_neg (by linarith : ¬ 1 ≤ p i),
    if_neg (by omega : ¬ n i ≤ 0), if_neg (by linarith : ¬ 1 - p i ≤ 0), if_neg (by linarith : ¬ 1 ≤ 1 - p i)]
  unfold cfPath
  simp only
  have e1 : (0.5 : ℝ) < p i := by norm_num; linarith
  have e2 : ¬ (0.5 : ℝ) < 1 - p i := by norm_num; linarith
  simp only [e1, e2, if_true, if_false]
  rw [if_neg (by omega : ¬ n i ≤ 0), if_neg (by omega : ¬ n i ≤ threshold)]

/-- Non-vacuity of C46 (large counts): a count of 200 above the shipped threshold, with probability 0.7. -/
example : ∃ x : ℝ → ℝ, ∫ z, x z ∂(gaussianReal 0 1) = 140 := by
  obtain ⟨x, _, h, _⟩ := C46_large_count 128 200 0.7 (by norm_num) (by norm_num) (by norm_num)
  exact ⟨x, by rw [h]; norm_num⟩

end Verif.Randgen
