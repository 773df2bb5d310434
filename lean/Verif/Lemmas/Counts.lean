/-
Lemmas about binomially distributed counts.
-/
import Verif.Spec.Counts
import Verif.Lemmas.Signals
import Mathlib.RingTheory.Polynomial.Bernstein

namespace Verif.Plugins
open Verif MeasureTheory ProbabilityTheory

variable {Ω Ω₁ Ω₂ : Type} [MeasurableSpace Ω] [MeasurableSpace Ω₁] [MeasurableSpace Ω₂]

theorem binomialMass_nonneg (n : Nat) (p : ℝ) (h0 : 0 ≤ p) (h1 : p ≤ 1) (k : Nat) : 0 ≤ binomialMass n p k := by
  have : 0 ≤ 1 - p := by linarith
  unfold binomialMass
  positivity

theorem binomialMass_symm (n : Nat) (p : ℝ) (k : Nat) (hk : k ≤ n) : binomialMass n p (n - k) = binomialMass n (1 - p) k := by
  unfold binomialMass
  rw [Nat.choose_symm hk, Nat.sub_sub_self hk]
  ring

/-- Trials repeated on the successes. -/
theorem binomialMass_thin (n : Nat) (p q : ℝ) (k : Nat) :
    ∑ i ∈ Finset.range (n + 1), binomialMass n p i * binomialMass i q k = binomialMass n (p * q) k := by
  by_cases hk : k ≤ n
  · have hsub : Finset.Ico k (n + 1) ⊆ Finset.range (n + 1) := by
      intro i hi
      simp only [Finset.mem_Ico, Finset.mem_range] at hi ⊢
      exact hi.2
    rw [← Finset.sum_subset hsub]
    · rw [Finset.sum_Ico_eq_sum_range]
      have hterm : ∀ j ∈ Finset.range (n + 1 - k), binomialMass n p (k + j) * binomialMass (k + j) q k
          = n.choose k * (p * q) ^ k * ((p * (1 - q)) ^ j * (1 - p) ^ (n - k - j) * (n - k).choose j) := by
        intro j hj
        have hj' : j ≤ n - k := by
          have := Finset.mem_range.1 hj
          omega
        unfold binomialMass
        have hc : (n.choose (k + j) : ℝ) * ((k + j).choose k : ℝ) = n.choose k * (n - k).choose j := by
          have := Nat.choose_mul (n := n) (k := k + j) (s := k) (by omega)
          rw [Nat.add_sub_cancel_left] at this
          exact_mod_cast this
        rw [Nat.add_sub_cancel_left, ← Nat.sub_sub, pow_add, mul_pow, mul_pow]
        calc _ = ((n.choose (k + j) : ℝ) * ((k + j).choose k : ℝ)) * (p ^ k * p ^ j * (1 - p) ^ (n - k - j) * q ^ k * (1 - q) ^ j) := by ring
          _ = _ := by rw [hc]; ring
      rw [Finset.sum_congr rfl hterm, ← Finset.mul_sum, show n + 1 - k = n - k + 1 by omega, ← add_pow]
      unfold binomialMass
      congr 2
      ring
    · intro i hi hn
      have : i < k := by
        simp only [Finset.mem_Ico, Finset.mem_range, not_and, not_lt] at hi hn
        by_contra hcon
        have := hn (by omega)
        omega
      unfold binomialMass
      rw [Nat.choose_eq_zero_of_lt this]
      simp
  · rw [Finset.sum_eq_zero]
    · unfold binomialMass
      rw [Nat.choose_eq_zero_of_lt (by omega)]
      simp
    · intro i hi
      have := Finset.mem_range.1 hi
      unfold binomialMass
      rw [Nat.choose_eq_zero_of_lt (show i < k by omega)]
      simp

/-- Successes among successes. -/
theorem BinomialCount.thin {P₁ : Measure Ω₁} {P₂ : Measure Ω₂} [IsProbabilityMeasure P₁] [IsProbabilityMeasure P₂] {X : Ω₁ → ℤ}
    {b : Ω₂ → Binomial} {n : Nat} {p q : ℝ} (h0 : 0 ≤ p) (h1 : p ≤ 1) (hX : BinomialCount P₁ X n p) (hb : BinomialSampler P₂ b n q)
    (q0 : 0 ≤ q) (q1 : q ≤ 1) :
    BinomialCount (P₁.prod P₂) (fun ω => b ω.2 (.fin q) (X ω.1)) n (p * q) := by
  have hset : ∀ A : Set ℤ, {ω : Ω₁ × Ω₂ | b ω.2 (.fin q) (X ω.1) ∈ A}
      = ⋃ i ∈ Finset.range (n + 1), {ω | X ω = (i : ℤ)} ×ˢ {ω | b ω (.fin q) (i : ℤ) ∈ A} := by
    intro A
    ext ⟨a, c⟩
    simp only [Set.mem_setOf_eq, Set.mem_iUnion, Set.mem_prod, Finset.mem_range, exists_prop]
    constructor
    · intro h
      obtain ⟨h3, h4⟩ := hX.range a
      refine ⟨(X a).toNat, by omega, by omega, ?_⟩
      rwa [Int.toNat_of_nonneg h3]
    · rintro ⟨i, _, h3, h4⟩
      rwa [h3]
  have hmeas : ∀ (A : Set ℤ) (i : Nat), i ∈ Finset.range (n + 1) →
      MeasurableSet ({ω | X ω = (i : ℤ)} ×ˢ {ω | b ω (.fin q) (i : ℤ) ∈ A}) := by
    intro A i hi
    refine MeasurableSet.prod (hX.measurable (measurableSet_singleton _)) ?_
    exact (hb i (by have := Finset.mem_range.1 hi; omega)).measurable (DiscreteMeasurableSpace.forall_measurableSet A)
  refine ⟨?_, ?_, ?_⟩
  · intro A _
    show MeasurableSet {ω : Ω₁ × Ω₂ | b ω.2 (.fin q) (X ω.1) ∈ A}
    rw [hset A]
    exact Finset.measurableSet_biUnion _ (hmeas A)
  · rintro ⟨a, c⟩
    obtain ⟨h3, h4⟩ := hX.range a
    have h5 := (hb (X a).toNat (by omega)).range c
    simp only [Int.toNat_of_nonneg h3] at h5
    exact ⟨h5.1, h5.2.trans h4⟩
  · intro k
    have e : {ω : Ω₁ × Ω₂ | b ω.2 (.fin q) (X ω.1) = (k : ℤ)} = {ω : Ω₁ × Ω₂ | b ω.2 (.fin q) (X ω.1) ∈ ({(k : ℤ)} : Set ℤ)} := by
      ext; simp
    rw [e, hset, measure_biUnion_finset _ (hmeas _)]
    · rw [← binomialMass_thin, ENNReal.ofReal_sum_of_nonneg (fun i _ => mul_nonneg (binomialMass_nonneg n p h0 h1 i)
        (binomialMass_nonneg i q q0 q1 k))]
      refine Finset.sum_congr rfl fun i hi => ?_
      have hi' : i ≤ n := by have := Finset.mem_range.1 hi; omega
      rw [Measure.prod_prod, hX.law i, ENNReal.ofReal_mul (binomialMass_nonneg n p h0 h1 i)]
      have := (hb i hi').law k
      simp only [Set.mem_singleton_iff]
      rw [this]
    · intro i _ j _ hij
      simp only [Function.onFun]
      rw [Set.disjoint_left]
      rintro ⟨a, c⟩ ha hc
      have h3 : X a = i := ha.1
      have h4 : X a = j := hc.1
      exact hij (by exact_mod_cast h3.symm.trans h4)

/-- The failures. -/
theorem BinomialCount.failures {P : Measure Ω} {X : Ω → ℤ} {n : Nat} {p : ℝ} (hX : BinomialCount P X n p) :
    BinomialCount P (fun ω => n - X ω) n (1 - p) := by
  refine ⟨measurable_const.sub hX.measurable, fun ω => ?_, fun k => ?_⟩
  · have := hX.range ω
    omega
  · by_cases hk : k ≤ n
    · have e : {ω | (n : ℤ) - X ω = k} = {ω | X ω = ((n - k : ℕ) : ℤ)} := by
        ext ω
        simp only [Set.mem_setOf_eq]
        omega
      rw [e, hX.law, binomialMass_symm n p k hk]
    · have e : {ω | (n : ℤ) - X ω = k} = ∅ := by
        ext ω
        have := hX.range ω
        simp only [Set.mem_setOf_eq, Set.mem_empty_iff_false, iff_false]
        omega
      rw [e, measure_empty]
      unfold binomialMass
      rw [Nat.choose_eq_zero_of_lt (by omega)]
      simp

theorem BinomialCount.integrable {P : Measure Ω} [IsProbabilityMeasure P] {X : Ω → ℤ} {n : Nat} {p : ℝ} (hX : BinomialCount P X n p)
    (f : ℤ → ℝ) : Integrable (fun ω => f (X ω)) P := by
  refine Integrable.of_bound (C := ∑ k ∈ Finset.range (n + 1), |f k|) ?_ ?_
  · exact (measurable_of_countable f).comp hX.measurable |>.aestronglyMeasurable
  · refine Filter.Eventually.of_forall fun ω => ?_
    obtain ⟨h3, h4⟩ := hX.range ω
    have := Finset.single_le_sum (f := fun k : Nat => |f k|) (fun i _ => abs_nonneg _)
      (show (X ω).toNat ∈ Finset.range (n + 1) by simp; omega)
    simp only [Int.toNat_of_nonneg h3] at this
    simpa using this

theorem BinomialCount.integral {P : Measure Ω} [IsProbabilityMeasure P] {X : Ω → ℤ} {n : Nat} {p : ℝ} (h0 : 0 ≤ p) (h1 : p ≤ 1)
    (hX : BinomialCount P X n p) (f : ℤ → ℝ) : ∫ ω, f (X ω) ∂P = ∑ k ∈ Finset.range (n + 1), f k * binomialMass n p k := by
  have hf : (fun ω => f (X ω)) = fun ω => ∑ k ∈ Finset.range (n + 1), ({ω | X ω = (k : ℤ)} : Set Ω).indicator (fun _ => f k) ω := by
    funext ω
    obtain ⟨h3, h4⟩ := hX.range ω
    rw [Finset.sum_eq_single (X ω).toNat]
    · rw [Set.indicator_of_mem (by simp [Int.toNat_of_nonneg h3]), Int.toNat_of_nonneg h3]
    · intro j _ hj
      rw [Set.indicator_of_notMem]
      simp only [Set.mem_setOf_eq]
      omega
    · intro h
      exfalso
      apply h
      simp
      omega
  have hms : ∀ k : Nat, MeasurableSet {ω | X ω = (k : ℤ)} := fun k => hX.measurable (measurableSet_singleton _)
  rw [hf, integral_finsetSum _ (fun k _ => (integrable_const _).indicator (hms k))]
  refine Finset.sum_congr rfl fun k _ => ?_
  rw [integral_indicator_const _ (hms k), Measure.real, hX.law, ENNReal.toReal_ofReal (binomialMass_nonneg n p h0 h1 k), smul_eq_mul, mul_comm]

theorem sum_mass (n : Nat) (p : ℝ) : ∑ k ∈ Finset.range (n + 1), binomialMass n p k = 1 := by
  have h := add_pow p (1 - p) n
  rw [show p + (1 - p) = 1 by ring, one_pow] at h
  rw [h]
  exact Finset.sum_congr rfl fun k _ => by unfold binomialMass; ring

theorem bernstein_eval (n : Nat) (p : ℝ) (k : Nat) : (bernsteinPolynomial ℝ n k).eval p = binomialMass n p k := by
  simp [bernsteinPolynomial, binomialMass]

theorem mean_mass (n : Nat) (p : ℝ) : ∑ k ∈ Finset.range (n + 1), (k : ℝ) * binomialMass n p k = n * p := by
  have h := congrArg (Polynomial.eval p) (bernsteinPolynomial.sum_smul ℝ n)
  simpa [Polynomial.eval_finset_sum, bernstein_eval] using h

theorem variance_mass (n : Nat) (p : ℝ) :
    ∑ k ∈ Finset.range (n + 1), ((k : ℝ) - n * p) ^ 2 * binomialMass n p k = n * p * (1 - p) := by
  have h := congrArg (Polynomial.eval p) (bernsteinPolynomial.variance ℝ n)
  simp only [Polynomial.eval_finset_sum, Polynomial.eval_mul, Polynomial.eval_pow, Polynomial.eval_sub, Polynomial.eval_smul,
    Polynomial.eval_X, Polynomial.eval_natCast, bernstein_eval, smul_eq_mul, nsmul_eq_mul, Polynomial.eval_one] at h
  rw [← h]
  exact Finset.sum_congr rfl fun k _ => by ring

theorem BinomialCount.mean {P : Measure Ω} [IsProbabilityMeasure P] {X : Ω → ℤ} {n : Nat} {p : ℝ} (h0 : 0 ≤ p) (h1 : p ≤ 1)
    (hX : BinomialCount P X n p) : ∫ ω, ((X ω : ℤ) : ℝ) ∂P = n * p := by
  rw [hX.integral h0 h1 (fun k => (k : ℝ))]
  exact_mod_cast mean_mass n p

theorem BinomialCount.variance {P : Measure Ω} [IsProbabilityMeasure P] {X : Ω → ℤ} {n : Nat} {p : ℝ} (h0 : 0 ≤ p) (h1 : p ≤ 1)
    (hX : BinomialCount P X n p) : ∫ ω, (((X ω : ℤ) : ℝ) - n * p) ^ 2 ∂P = n * p * (1 - p) := by
  rw [hX.integral h0 h1 (fun k => ((k : ℝ) - n * p) ^ 2)]
  exact_mod_cast variance_mass n p

end Verif.Plugins
