/-
Property theorems C68 (errors to sigmas of a two-half-normal, utils.py) and C69 (negative binomial, randgen.py).
-/
import Mathlib.Analysis.SpecialFunctions.Gamma.Basic
import Verif.Lemmas.Erf

namespace Verif.Randgen
open Verif MeasureTheory ProbabilityTheory

/-! ### C68: errors to sigmas -/

/-- **C68 (percentiles).** When the solver's answer is an exact root with positive sigmas, the two-half-normal density with these
sigmas leaves above `mu` plus the upper error, and below `mu` minus the lower error, the probability a normal distribution
leaves on one side of one standard deviation. -/
theorem C68_percentiles (root : (ℝ × ℝ → ℝ × ℝ) → ℝ × ℝ → Option (ℝ × ℝ)) (hr : ∀ f x0 x, root f x0 = some x → f x = (0, 0))
    (errors sig : ℝ × ℝ) (h1 : 0 ≤ errors.1) (h2 : 0 ≤ errors.2) (h : errorsToSigmas root erf oneSigma errors = .ok sig)
    (hp : 0 < sig.1) (hn : 0 < sig.2) (mu : ℝ) (l : ℝ → ℝ) (hl : ∀ x, thnLogpdf x mu sig.1 sig.2 = .ok (l x)) :
    lawOf l (Set.Ioi (mu + errors.1)) = gaussianReal 0 1 (Set.Ioi 1) ∧
      lawOf l (Set.Iio (mu - errors.2)) = gaussianReal 0 1 (Set.Ioi 1) := by
  have hle : l = ell mu sig.1 sig.2 := by
    funext x
    have := hl x
    rw [thnLogpdf_ok mu sig.1 sig.2 x hp hn] at this
    simp only [Except.ok.injEq] at this
    exact this.symm
  unfold errorsToSigmas at h
  cases hroot : root (toSolve erf (1 - oneSigma) errors) errors with
  | none =>
    rw [hroot] at h
    cases h
  | some x =>
    rw [hroot] at h
    simp only [Except.ok.injEq] at h
    subst h
    have h0 := hr _ _ _ hroot
    simp only [toSolve, Prod.mk.injEq] at h0
    obtain ⟨e1, e2⟩ := h0
    rw [oneSigma_eq] at e1 e2
    rw [hle]
    constructor
    · rw [thn_upper_tail mu x.1 x.2 errors.1 hp hn h1, gaussian_tail]
      congr 1
      linarith
    · rw [thn_lower_tail mu x.1 x.2 errors.2 hp hn h2, gaussian_tail]
      congr 1
      linarith

/-- **C68 (symmetric errors).** Equal errors are their own sigmas: they solve the equations. -/
theorem C68_symmetric (e : ℝ) (he : 0 < e) : toSolve erf (1 - oneSigma) (e, e) (e, e) = (0, 0) := by
  unfold toSolve
  have h1 : e / (e + e) = 1 / 2 := by
    have : e ≠ 0 := he.ne'
    field_simp
    ring
  simp only [h1, div_self he.ne', oneSigma_eq, Prod.mk.injEq]
  constructor <;> ring

/-- **C68 (failure).** A solver that reports no success makes the conversion raise. -/
theorem C68_failure (root : (ℝ × ℝ → ℝ × ℝ) → ℝ × ℝ → Option (ℝ × ℝ)) (c : ℝ) (errors : ℝ × ℝ)
    (h : ∀ f x0, root f x0 = none) : errorsToSigmas root erf c errors = .error .assertionError := by
  unfold errorsToSigmas
  rw [h]

open Classical in
/-- A solver that finds exact roots from the starting point, and its answer for equal errors. -/
example : ∃ root : (ℝ × ℝ → ℝ × ℝ) → ℝ × ℝ → Option (ℝ × ℝ), (∀ f x0 x, root f x0 = some x → f x = (0, 0)) ∧
    errorsToSigmas root erf oneSigma (2, 2) = .ok (2, 2) := by
  refine ⟨fun f x0 => if f x0 = (0, 0) then some x0 else none, ?_, ?_⟩
  · intro f x0 x h
    by_cases hc : f x0 = (0, 0)
    · simp only [if_pos hc, Option.some.injEq] at h
      rw [← h]
      exact hc
    · simp only [if_neg hc] at h
      cases h
  · unfold errorsToSigmas
    simp only [if_pos (C68_symmetric 2 (by norm_num))]

/-! ### C69: negative binomial -/

/-- **C69 (composition).** A negative binomial draw is a Poisson draw whose expectation is a gamma draw of shape `n` divided by
the rate `p / (1 - p)`, from two different keys. -/
theorem C69_composition {m : Nat} (r : Rng m) (p n : Fin m → ℝ) (s : St) :
    ∃ k1 k2 : Key, k1 ≠ k2 ∧ (negativeBinomial r p n s).2.used = k2 :: k1 :: s.used ∧
      (negativeBinomial r p n s).1 = r.poisson k2 (fun i => r.gamma k1 n i / (p i / (1 - p i))) :=
  ⟨s.key.child 2 1, (s.key.child 2 0).child 2 1, by simp [Key.child], rfl, rfl⟩

/-- **C69 (distribution).** With a gamma draw of shape `n` and a Poisson draw the number drawn has the negative binomial
distribution of `n` successes with probability `p`. -/
theorem C69_distribution (n p : ℝ) (hn : 0 < n) (h0 : 0 < p) (h1 : p < 1) (k : Nat) :
    ∫ x in Set.Ioi (0 : ℝ), (x ^ (n - 1) * Real.exp (-x) / Real.Gamma n)
        * (Real.exp (-(x / (p / (1 - p)))) * (x / (p / (1 - p))) ^ k / k.factorial)
      = Real.Gamma (n + k) / (k.factorial * Real.Gamma n) * p ^ n * (1 - p) ^ k := by
  have hq : 0 < 1 - p := by linarith
  have hG : Real.Gamma n ≠ 0 := (Real.Gamma_pos_of_pos hn).ne'
  have hk : (k.factorial : ℝ) ≠ 0 := by exact_mod_cast k.factorial_ne_zero
  have key : ∀ x ∈ Set.Ioi (0 : ℝ), (x ^ (n - 1) * Real.exp (-x) / Real.Gamma n)
        * (Real.exp (-(x / (p / (1 - p)))) * (x / (p / (1 - p))) ^ k / k.factorial)
      = (((1 - p) / p) ^ k / (Real.Gamma n * k.factorial)) * (x ^ (n + k - 1) * Real.exp (-(1 / p * x))) := by
    intro x hx
    have hx' : 0 < x := hx
    have e1 : x / (p / (1 - p)) = (1 - p) / p * x := by
      field_simp
    have e2 : x ^ (n + k - 1) = x ^ (n - 1) * x ^ k := by
      rw [show n + (k : ℝ) - 1 = (n - 1) + (k : ℝ) by ring, Real.rpow_add hx', Real.rpow_natCast]
    have e3 : Real.exp (-(1 / p * x)) = Real.exp (-x) * Real.exp (-((1 - p) / p * x)) := by
      rw [← Real.exp_add]
      congr 1
      field_simp
      ring
    rw [e1, e2, e3, mul_pow]
    field_simp
  rw [setIntegral_congr_fun measurableSet_Ioi key, integral_const_mul,
    Real.integral_rpow_mul_exp_neg_mul_Ioi (by positivity) (by positivity)]
  rw [one_div_one_div, Real.rpow_add h0, Real.rpow_natCast, div_pow]
  have hpk : p ^ k ≠ 0 := by positivity
  field_simp

end Verif.Randgen
