/-
Property theorems C114: the fluctuations of the two signals of an event.
-/
import Verif.Lemmas.Width
import Verif.Props.Counts
import Verif.Props.Signals

namespace Verif.Plugins
open Verif MeasureTheory ProbabilityTheory

variable {Ω₀ Ω₁ Ω₂ Ω₃ Ω₄ Ω₅ Ω₆ Ω₇ Ω₈ : Type} [MeasurableSpace Ω₀] [MeasurableSpace Ω₁] [MeasurableSpace Ω₂] [MeasurableSpace Ω₃]
  [MeasurableSpace Ω₄] [MeasurableSpace Ω₅] [MeasurableSpace Ω₆] [MeasurableSpace Ω₇] [MeasurableSpace Ω₈]

/-- **C114 (S2).** An event with `n` quanta each of which gives an electron with probability `e`: with `Q` the probability that a quantum gives an
extracted electron and `c` the mean number of photoelectrons of an extracted electron, the S2 has the mean `n Q c` photoelectrons and the variance
`n Q (c² (1 - Q) + c (1 + 3 p) / (1 + p))`. -/
theorem C114_s2 (P₀ : Measure Ω₀) (P₁ : Measure Ω₁) (P₂ : Measure Ω₂) (P₃ : Measure Ω₃) (P₄ : Measure Ω₄) [IsProbabilityMeasure P₀]
    [IsProbabilityMeasure P₁] [IsProbabilityMeasure P₂] [IsProbabilityMeasure P₃] [IsProbabilityMeasure P₄] (E : Ω₀ → ℤ) (b0 : Ω₁ → Binomial)
    (b1 : Ω₂ → Binomial) (q : Ω₃ → Poisson) (b2 : Ω₄ → Binomial) (e survive g2 gasGain pDpe rel lce : ℝ) (n : Nat)
    (he : 0 ≤ e) (he1 : e ≤ 1) (hs : 0 ≤ survive) (hs1 : survive ≤ 1) (h0 : 0 ≤ g2) (hg : 0 < gasGain * rel) (h1 : g2 ≤ gasGain * rel)
    (hp : 0 ≤ pDpe) (hp1 : pDpe ≤ 1) (hl : 0 ≤ lce) (hE : BinomialCount P₀ E n e)
    (s0 : BinomialSampler P₁ b0 n survive) (s1 : BinomialSampler P₂ b1 n (g2 / (gasGain * rel))) (s3 : PoissonSampler P₃ q)
    (s2 : ∀ N, BinomialSampler P₄ b2 N pDpe) :
    let S : (Ω₀ × Ω₁) × Ω₂ → Ω₃ → Ω₄ → ℝ := fun ω ω₃ ω₄ => ((s2PE (b1 ω.2) (b2 ω₄) (q ω₃) (.fin g2) (.fin gasGain) (.fin pDpe) (.fin rel) (.fin lce)
      (electronDrifted (b0 ω.1.2) (.fin survive) (E ω.1.1))).2.2 : ℤ)
    let Q := e * survive * (g2 / (gasGain * rel))
    let c := gasGain * rel * lce
    ∫ ω, ∫ ω₃, ∫ ω₄, S ω ω₃ ω₄ ∂P₄ ∂P₃ ∂((P₀.prod P₁).prod P₂) = n * Q * c ∧
    ∫ ω, ∫ ω₃, ∫ ω₄, (S ω ω₃ ω₄ - n * Q * c) ^ 2 ∂P₄ ∂P₃ ∂((P₀.prod P₁).prod P₂)
      = n * Q * (c ^ 2 * (1 - Q) + c * (1 + 3 * pDpe) / (1 + pDpe)) := by
  intro S Q c
  have hd : (1 : ℝ) + pDpe ≠ 0 := by positivity
  have hx1 : g2 / (gasGain * rel) ≤ 1 := (div_le_one hg).2 h1
  have hx0 : 0 ≤ g2 / (gasGain * rel) := by positivity
  have hX : BinomialCount ((P₀.prod P₁).prod P₂)
      (fun ω => b1 ω.2 (.fin (g2 / (gasGain * rel))) (electronDrifted (b0 ω.1.2) (.fin survive) (E ω.1.1))) n Q :=
    (hE.thin he he1 s0 hs hs1).thin (by positivity) (mul_le_one₀ he1 hs hs1) s1 hx0 hx1
  have hQ0 : 0 ≤ Q := by positivity
  have hQ1 : Q ≤ 1 := mul_le_one₀ (mul_le_one₀ he1 hs hs1) hx0 hx1
  set X := fun ω : (Ω₀ × Ω₁) × Ω₂ => b1 ω.2 (.fin (g2 / (gasGain * rel))) (electronDrifted (b0 ω.1.2) (.fin survive) (E ω.1.1)) with hXdef
  have hγ : 0 ≤ c / (1 + pDpe) := by positivity
  have hmu : ∀ ω, 0 ≤ (X ω : ℝ) * (c / (1 + pDpe)) := fun ω => mul_nonneg (by exact_mod_cast (hX.range ω).1) hγ
  have hS : ∀ ω ω₃ ω₄, S ω ω₃ ω₄ = ((q ω₃ (.fin ((X ω : ℝ) * (c / (1 + pDpe)))) : ℤ) : ℝ)
      + ((b2 ω₄ (.fin pDpe) (q ω₃ (.fin ((X ω : ℝ) * (c / (1 + pDpe))))) : ℤ) : ℝ) := by
    intro ω ω₃ ω₄
    simp only [S]
    rw [s2_eq g2 gasGain pDpe rel lce _ _ _ _ hp hg.ne']
    push_cast
    rfl
  have hK := fun ω => s3 _ (hmu ω)
  constructor
  · have i4 : ∀ ω ω₃, ∫ ω₄, S ω ω₃ ω₄ ∂P₄ = ((q ω₃ (.fin ((X ω : ℝ) * (c / (1 + pDpe)))) : ℤ) : ℝ) * (1 + pDpe) := by
      intro ω ω₃
      simp only [hS]
      obtain ⟨j1, j2, -⟩ := dpe_square hp hp1 _ ((hK ω).nonneg ω₃) (s2 _) 0
      rw [integral_add (integrable_const _) j1, j2]
      simp
      ring
    have i3 : ∀ ω, ∫ ω₃, ∫ ω₄, S ω ω₃ ω₄ ∂P₄ ∂P₃ = (X ω : ℝ) * c := by
      intro ω
      simp only [i4]
      have := ((hK ω).quadratic (hmu ω) 0 (1 + pDpe) 0).2
      simp only [zero_mul, zero_add, add_zero] at this
      simp only [mul_comm _ (1 + pDpe)]
      rw [this]
      field_simp
    simp only [i3]
    rw [integral_mul_const, hX.mean hQ0 hQ1]
  · set m := n * Q * c with hm
    have i4 : ∀ ω ω₃, ∫ ω₄, (S ω ω₃ ω₄ - m) ^ 2 ∂P₄ = (1 + pDpe) ^ 2 * ((q ω₃ (.fin ((X ω : ℝ) * (c / (1 + pDpe)))) : ℤ) : ℝ) ^ 2
        + (pDpe * (1 - pDpe) - 2 * (1 + pDpe) * m) * ((q ω₃ (.fin ((X ω : ℝ) * (c / (1 + pDpe)))) : ℤ) : ℝ) + m ^ 2 := by
      intro ω ω₃
      simp only [hS]
      exact (dpe_square hp hp1 _ ((hK ω).nonneg ω₃) (s2 _) m).2.2
    have i3 : ∀ ω, ∫ ω₃, ∫ ω₄, (S ω ω₃ ω₄ - m) ^ 2 ∂P₄ ∂P₃ = c ^ 2 * ((X ω : ℝ) - n * Q) ^ 2 + c * (1 + 3 * pDpe) / (1 + pDpe) * (X ω : ℝ) := by
      intro ω
      simp only [i4]
      rw [((hK ω).quadratic (hmu ω) _ _ _).2, hm]
      field_simp
      ring
    simp only [i3]
    rw [integral_add ((hX.integrable (fun k => ((k : ℝ) - n * Q) ^ 2)).const_mul _) ((hX.integrable (fun k => (k : ℝ))).const_mul _),
      integral_const_mul, integral_const_mul, hX.variance hQ0 hQ1, hX.mean hQ0 hQ1]
    ring

/-- **C114 (the two signals).** The corrected S1 and the corrected S2 of an electronic recoil with `n` quanta vary against each other: a quantum that
is not a photon is an electron.  Their covariance is `- g1 g2 (1 + bias1) (1 + bias2)` times the variance of the number of electrons, whatever
detection, drift, extraction, amplification, double photoelectrons and reconstruction add to either. -/
theorem C114_anticorrelated (P₁ : Measure Ω₁) (P₂ : Measure Ω₂) (P₃ : Measure Ω₃) (P₄ : Measure Ω₄) (P₅ : Measure Ω₅) (P₆ : Measure Ω₆)
    (P₇ : Measure Ω₇) (P₈ : Measure Ω₈) [IsProbabilityMeasure P₁] [IsProbabilityMeasure P₂] [IsProbabilityMeasure P₃] [IsProbabilityMeasure P₄]
    [IsProbabilityMeasure P₅] [IsProbabilityMeasure P₆] [IsProbabilityMeasure P₇] [IsProbabilityMeasure P₈] (b1 : Ω₁ → Binomial) (b2 : Ω₂ → Binomial)
    (b3 : Ω₃ → Binomial) (b4 : Ω₄ → Binomial) (b5 : Ω₅ → Binomial) (b6 : Ω₆ → Binomial) (q : Ω₇ → Poisson) (b8 : Ω₈ → Binomial)
    (ok3 : ∀ ω, BinomialOk (b3 ω)) (ok5 : ∀ ω, BinomialOk (b5 ω)) (ok6 : ∀ ω, BinomialOk (b6 ω)) (okq : ∀ ω, PoissonOk (q ω))
    (ratio r g1 lce1 bias1 survive g2 gasGain rel lce2 bias2 pDpe : ℝ) (smear1 smear2 : ℝ → ℝ) (n : Nat) (hr : 0 ≤ ratio) (r0 : 0 ≤ r) (r1 : r ≤ 1)
    (hp : 0 ≤ pDpe) (hl1 : 0 < lce1) (hg1 : 0 ≤ g1) (h1 : g1 * lce1 ≤ 1 + pDpe) (hs : 0 < survive) (hl2 : 0 < lce2) (hg : 0 < gasGain * rel)
    (s1 : BinomialSampler P₁ b1 n (1 / (1 + ratio))) (s2 : BinomialSampler P₂ b2 n (1 - r))
    (f3 : ∀ d : ℤ, 0 ≤ d → d ≤ n → Fair P₃ b3 (g1 * lce1 / (1 + pDpe)) d) (f4 : ∀ d : ℤ, 0 ≤ d → d ≤ n → Fair P₄ b4 pDpe d)
    (f5 : ∀ d : ℤ, 0 ≤ d → d ≤ n → Fair P₅ b5 survive d) (f6 : ∀ d : ℤ, 0 ≤ d → d ≤ n → Fair P₆ b6 (g2 / (gasGain * rel)) d)
    (f7 : ∀ mu, 0 ≤ mu → FairPoisson P₇ q mu) (f8 : ∀ d : ℤ, 0 ≤ d → Fair P₈ b8 pDpe d) :
    let N : Ω₁ × Ω₂ → ℤ × ℤ := fun ω => splitER (b1 ω.1) (b2 ω.2) ratio r n
    let m1 := g1 * (n * (ratio + r) / (1 + ratio)) * (1 + bias1)
    let m2 := g2 * (n * (1 - r) / (1 + ratio)) * (1 + bias2)
    ∫ ω, ∫ ω₃, ∫ ω₄, ∫ z, ∫ ω₅, ∫ ω₆, ∫ ω₇, ∫ ω₈, ∫ z',
      (signal1 (b3 ω₃) (b4 ω₄) z g1 pDpe lce1 bias1 smear1 lce1 (N ω).1 - m1)
        * (signal2 (b5 ω₅) (b6 ω₆) (b8 ω₈) (q ω₇) z' survive g2 gasGain pDpe rel lce2 bias2 smear2 lce2 (N ω).2 - m2)
      ∂(gaussianReal 0 1) ∂P₈ ∂P₇ ∂P₆ ∂P₅ ∂(gaussianReal 0 1) ∂P₄ ∂P₃ ∂(P₁.prod P₂)
      = - (g1 * g2 * (1 + bias1) * (1 + bias2) * (n * (1 - r) * (ratio + r) / (1 + ratio) ^ 2)) := by
  intro N m1 m2
  have hd : (1 : ℝ) + ratio ≠ 0 := by positivity
  have he := C103_electrons P₁ P₂ b1 b2 ratio r n hr r0 r1 s1 s2
  have hph := C103_photons P₁ P₂ b1 b2 ratio r n hr r0 r1 s1 s2
  have in2 : ∀ ω ω₃ ω₄ z, ∫ ω₅, ∫ ω₆, ∫ ω₇, ∫ ω₈, ∫ z',
      (signal1 (b3 ω₃) (b4 ω₄) z g1 pDpe lce1 bias1 smear1 lce1 (N ω).1 - m1)
        * (signal2 (b5 ω₅) (b6 ω₆) (b8 ω₈) (q ω₇) z' survive g2 gasGain pDpe rel lce2 bias2 smear2 lce2 (N ω).2 - m2)
      ∂(gaussianReal 0 1) ∂P₈ ∂P₇ ∂P₆ ∂P₅
      = (g2 * (N ω).2 * (1 + bias2) - m2) * (signal1 (b3 ω₃) (b4 ω₄) z g1 pDpe lce1 bias1 smear1 lce1 (N ω).1 - m1) := by
    intro ω ω₃ ω₄ z
    have hN := he.range ω
    rw [signal2_layers P₅ P₆ P₇ P₈ b5 b6 q b8 ok5 ok6 okq survive g2 gasGain pDpe rel lce2 bias2 smear2 (N ω).2 hN.1 hp hs hl2 hg
      (f5 _ hN.1 hN.2) (fun d h0 h1 => f6 d h0 (h1.trans hN.2)) f7 f8]
    ring
  simp only [in2]
  have in1 : ∀ ω, ∫ ω₃, ∫ ω₄, ∫ z, (g2 * (N ω).2 * (1 + bias2) - m2)
      * (signal1 (b3 ω₃) (b4 ω₄) z g1 pDpe lce1 bias1 smear1 lce1 (N ω).1 - m1) ∂(gaussianReal 0 1) ∂P₄ ∂P₃
      = - (g1 * g2 * (1 + bias1) * (1 + bias2)) * (((N ω).2 : ℝ) - n * (1 - r) / (1 + ratio)) ^ 2 := by
    intro ω
    have hN := hph.range ω
    rw [signal1_layers P₃ P₄ b3 b4 ok3 g1 pDpe lce1 bias1 smear1 (N ω).1 hN.1 hp hl1 hg1 h1 (f3 _ hN.1 hN.2)
      (fun d h0 h1 => f4 d h0 (h1.trans hN.2))]
    have hsum : ((N ω).1 : ℝ) = n - (N ω).2 := by
      have : (N ω).1 + (N ω).2 = n := by simp only [N, splitER, recombinationER]; ring
      exact eq_sub_of_add_eq (by exact_mod_cast this)
    rw [hsum]
    simp only [m1, m2]
    field_simp
    ring
  simp only [in1]
  rw [integral_const_mul, (C103_moments P₁ P₂ b1 b2 ratio r n hr r0 r1 s1 s2).2.2.1]
  ring

/-- A case of C114 that is not trivial: a hundred quanta of which half are electrons, all drifting, a third of them extracted, twenty photoelectrons
each. -/
example : ∫ ω, ∫ w, ∫ x, (((s2PE (trialsBinomial ω.2) (trialsBinomial x) (quantilePoisson w) (.fin 10) (.fin 30) (.fin 0) (.fin 1) (.fin 1)
      (electronDrifted (trialsBinomial ω.1.2) (.fin 1) (trialsBinomial ω.1.1 (.fin (1 / 2)) (100 : ℕ)))).2.2 : ℤ) : ℝ) ∂manyTrials ∂Randgen.unif
      ∂((manyTrials.prod manyTrials).prod manyTrials) = 500 := by
  have h := (C114_s2 manyTrials manyTrials manyTrials Randgen.unif manyTrials (fun u => trialsBinomial u (.fin (1 / 2)) (100 : ℕ)) trialsBinomial
    trialsBinomial quantilePoisson trialsBinomial (1 / 2) 1 10 30 0 1 1 100 (by norm_num) (by norm_num) (by norm_num) (by norm_num) (by norm_num)
    (by norm_num) (by norm_num) (by norm_num) (by norm_num) (by norm_num) (trials_sampler _ (by norm_num) (by norm_num) 100 100 le_rfl)
    (trials_sampler _ (by norm_num) (by norm_num) 100) (trials_sampler _ (by norm_num) (by norm_num) 100) quantile_sampler
    (fun N => trials_sampler _ (by norm_num) (by norm_num) N)).1
  refine h.trans ?_
  norm_num

/-- A case of C114 that is not trivial: a hundred quanta, half of them electrons, `g1 = 0.1`, `g2 = 10`: the covariance is `-25`. -/
example : ∫ ω, ∫ u, ∫ v, ∫ z, ∫ s, ∫ t, ∫ w, ∫ x, ∫ z',
      (signal1 (trialsBinomial u) (trialsBinomial v) z (1 / 10) (1 / 5) 1 0 (fun _ => 1) 1 (splitER (trialsBinomial ω.1) (trialsBinomial ω.2) 0 (1 / 2) (100 : ℕ)).1
          - 1 / 10 * ((100 : ℕ) * (0 + 1 / 2) / (1 + 0)) * (1 + 0))
        * (signal2 (trialsBinomial s) (trialsBinomial t) (trialsBinomial x) (quantilePoisson w) z' (1 / 2) 10 30 (1 / 5) 1 1 0 (fun _ => 2) 1
          (splitER (trialsBinomial ω.1) (trialsBinomial ω.2) 0 (1 / 2) (100 : ℕ)).2 - 10 * ((100 : ℕ) * (1 - 1 / 2) / (1 + 0)) * (1 + 0))
      ∂(gaussianReal 0 1) ∂manyTrials ∂Randgen.unif ∂manyTrials ∂manyTrials ∂(gaussianReal 0 1) ∂manyTrials ∂manyTrials ∂(manyTrials.prod manyTrials)
      = -25 := by
  have h := C114_anticorrelated manyTrials manyTrials manyTrials manyTrials manyTrials manyTrials Randgen.unif manyTrials trialsBinomial trialsBinomial
    trialsBinomial trialsBinomial trialsBinomial trialsBinomial quantilePoisson trialsBinomial trialsBinomial_ok trialsBinomial_ok trialsBinomial_ok
    quantilePoisson_ok 0 (1 / 2) (1 / 10) 1 0 (1 / 2) 10 30 1 1 0 (1 / 5) (fun _ => 1) (fun _ => 2) 100 (by norm_num) (by norm_num) (by norm_num)
    (by norm_num) (by norm_num) (by norm_num) (by norm_num) (by norm_num) (by norm_num) (by norm_num)
    (trials_sampler _ (by norm_num) (by norm_num) 100) (trials_sampler _ (by norm_num) (by norm_num) 100)
    (fun d h0 _ => trials_fair _ (by norm_num) (by norm_num) d h0) (fun d h0 _ => trials_fair _ (by norm_num) (by norm_num) d h0)
    (fun d h0 _ => trials_fair _ (by norm_num) (by norm_num) d h0) (fun d h0 _ => trials_fair _ (by norm_num) (by norm_num) d h0)
    (fun mu h => quantile_fair h) (fun d h0 => trials_fair _ (by norm_num) (by norm_num) d h0)
  refine h.trans ?_
  norm_num

end Verif.Plugins
