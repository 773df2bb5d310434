/-
Property theorems C98: the corrected signals are unbiased.
-/
import Verif.Lemmas.Signals

namespace Verif.Plugins
open Verif MeasureTheory ProbabilityTheory

variable {Ω₁ Ω₂ Ω₃ Ω₄ : Type} [MeasurableSpace Ω₁] [MeasurableSpace Ω₂] [MeasurableSpace Ω₃] [MeasurableSpace Ω₄]

/-- **C98 (S1).** Averaged over independent draws, the corrected S1 of `n` photons is `g1 * n`, times one plus the reconstruction bias.
The position and the probability of double photoelectrons drop out if the correction is the light collection. -/
theorem C98_cs1 (P₁ : Measure Ω₁) (P₂ : Measure Ω₂) [IsProbabilityMeasure P₁] [IsProbabilityMeasure P₂] (b1 : Ω₁ → Binomial)
    (b2 : Ω₂ → Binomial) (ok : ∀ ω, BinomialOk (b1 ω)) (g1 pDpe lce bias : ℝ) (smear : ℝ → ℝ) (n : ℤ) (hn : 0 ≤ n)
    (hp : 0 ≤ pDpe) (hl : 0 < lce) (hg : 0 ≤ g1) (h1 : g1 * lce ≤ 1 + pDpe)
    (f1 : Fair P₁ b1 (g1 * lce / (1 + pDpe)) n) (f2 : ∀ d, 0 ≤ d → d ≤ n → Fair P₂ b2 pDpe d) :
    ∫ ω₁, ∫ ω₂, ∫ z, signal1 (b1 ω₁) (b2 ω₂) z g1 pDpe lce bias smear lce n ∂(gaussianReal 0 1) ∂P₂ ∂P₁ = g1 * n * (1 + bias) := by
  have hd : (1 : ℝ) + pDpe ≠ 0 := by linarith
  rw [s1_mean P₁ P₂ b1 b2 ok g1 pDpe lce bias (g1 * lce / (1 + pDpe)) smear lce n hn ?_ f2]
  · field_simp
  · simp only [detection_eq g1 pDpe lce _ n hp (by positivity) h1]
    exact f1.2

/-- **C98 (S1, correction elsewhere).** A correction that differs from the light collection at the true position, because the position was
reconstructed elsewhere, scales the mean with the ratio of both. -/
theorem C98_cs1_misplaced (P₁ : Measure Ω₁) (P₂ : Measure Ω₂) [IsProbabilityMeasure P₁] [IsProbabilityMeasure P₂] (b1 : Ω₁ → Binomial)
    (b2 : Ω₂ → Binomial) (ok : ∀ ω, BinomialOk (b1 ω)) (g1 pDpe lce correction bias : ℝ) (smear : ℝ → ℝ) (n : ℤ) (hn : 0 ≤ n)
    (hp : 0 ≤ pDpe) (hl : 0 < lce) (hg : 0 ≤ g1) (h1 : g1 * lce ≤ 1 + pDpe)
    (f1 : Fair P₁ b1 (g1 * lce / (1 + pDpe)) n) (f2 : ∀ d, 0 ≤ d → d ≤ n → Fair P₂ b2 pDpe d) :
    ∫ ω₁, ∫ ω₂, ∫ z, signal1 (b1 ω₁) (b2 ω₂) z g1 pDpe lce bias smear correction n ∂(gaussianReal 0 1) ∂P₂ ∂P₁
      = lce / correction * (g1 * n * (1 + bias)) := by
  have hd : (1 : ℝ) + pDpe ≠ 0 := by linarith
  rw [s1_mean P₁ P₂ b1 b2 ok g1 pDpe lce bias (g1 * lce / (1 + pDpe)) smear correction n hn ?_ f2]
  · by_cases hc : correction = 0
    · simp [hc]
    · field_simp
  · simp only [detection_eq g1 pDpe lce _ n hp (by positivity) h1]
    exact f1.2

/-- **C98 (S1, every photon detected).** Where `g1` times the light collection exceeds one plus the probability of double photoelectrons the
detection probability is cut to one: the corrected S1 is below `g1 * n`, and it depends on the position. -/
theorem C98_cs1_saturates (P₁ : Measure Ω₁) (P₂ : Measure Ω₂) [IsProbabilityMeasure P₁] [IsProbabilityMeasure P₂] (b1 : Ω₁ → Binomial)
    (b2 : Ω₂ → Binomial) (ok : ∀ ω, BinomialOk (b1 ω)) (g1 pDpe lce bias : ℝ) (smear : ℝ → ℝ) (n : ℤ) (hn : 0 ≤ n)
    (hp : 0 ≤ pDpe) (h1 : 1 + pDpe ≤ g1 * lce)
    (f1 : Fair P₁ b1 1 n) (f2 : ∀ d, 0 ≤ d → d ≤ n → Fair P₂ b2 pDpe d) :
    ∫ ω₁, ∫ ω₂, ∫ z, signal1 (b1 ω₁) (b2 ω₂) z g1 pDpe lce bias smear lce n ∂(gaussianReal 0 1) ∂P₂ ∂P₁
      = (1 + pDpe) / lce * n * (1 + bias) := by
  rw [s1_mean P₁ P₂ b1 b2 ok g1 pDpe lce bias 1 smear lce n hn ?_ f2]
  · ring
  · simp only [detection_one g1 pDpe lce _ n hp h1]
    exact f1.2

/-- **C98 (S2).** Averaged over independent draws, the corrected S2 of `n` electrons is `g2 * n`, times one plus the reconstruction bias.
The electron lifetime, the gas gain, its variation, the position and the probability of double photoelectrons drop out. -/
theorem C98_cs2 (P₁ : Measure Ω₁) (P₂ : Measure Ω₂) (P₃ : Measure Ω₃) (P₄ : Measure Ω₄) [IsProbabilityMeasure P₁] [IsProbabilityMeasure P₂]
    [IsProbabilityMeasure P₃] [IsProbabilityMeasure P₄] (b0 : Ω₁ → Binomial) (b1 : Ω₂ → Binomial) (q : Ω₃ → Poisson) (b2 : Ω₄ → Binomial)
    (ok0 : ∀ ω, BinomialOk (b0 ω)) (ok1 : ∀ ω, BinomialOk (b1 ω)) (okq : ∀ ω, PoissonOk (q ω))
    (survive g2 gasGain pDpe rel lce bias : ℝ) (smear : ℝ → ℝ) (n : ℤ) (hn : 0 ≤ n)
    (hp : 0 ≤ pDpe) (hs : 0 < survive) (hl : 0 < lce) (hg : 0 < gasGain * rel)
    (f0 : Fair P₁ b0 survive n) (f1 : ∀ d, 0 ≤ d → d ≤ n → Fair P₂ b1 (g2 / (gasGain * rel)) d)
    (f3 : ∀ mu, 0 ≤ mu → FairPoisson P₃ q mu) (f2 : ∀ d, 0 ≤ d → Fair P₄ b2 pDpe d) :
    ∫ ω₁, ∫ ω₂, ∫ ω₃, ∫ ω₄, ∫ z, signal2 (b0 ω₁) (b1 ω₂) (b2 ω₄) (q ω₃) z survive g2 gasGain pDpe rel lce bias smear lce n
      ∂(gaussianReal 0 1) ∂P₄ ∂P₃ ∂P₂ ∂P₁ = g2 * n * (1 + bias) := by
  rw [s2_mean P₁ P₂ P₃ P₄ b0 b1 q b2 ok0 ok1 okq survive g2 gasGain pDpe rel lce bias (g2 / (gasGain * rel)) smear n hn hp hs hl hg f0
    (fun d h h' => (f1 d h h').2) f3 f2, div_mul_cancel₀ _ hg.ne']

/-- **C98 (S2, every electron extracted).** The extraction probability is not cut, but the shipped sampler extracts every electron when it is
above one.  The corrected S2 is then the gas gain with its variation per electron, below `g2 * n`. -/
theorem C98_cs2_saturates (P₁ : Measure Ω₁) (P₂ : Measure Ω₂) (P₃ : Measure Ω₃) (P₄ : Measure Ω₄) [IsProbabilityMeasure P₁]
    [IsProbabilityMeasure P₂] [IsProbabilityMeasure P₃] [IsProbabilityMeasure P₄] (b0 : Ω₁ → Binomial) (rnd : ℝ → ℤ) (threshold : Nat)
    (z1 : ℝ) (u : Ω₂ → Nat → ℝ) (q : Ω₃ → Poisson) (b2 : Ω₄ → Binomial) (ok0 : ∀ ω, BinomialOk (b0 ω)) (okq : ∀ ω, PoissonOk (q ω))
    (survive g2 gasGain pDpe rel lce bias : ℝ) (smear : ℝ → ℝ) (n : ℤ) (hn : 0 ≤ n)
    (hp : 0 ≤ pDpe) (hs : 0 < survive) (hl : 0 < lce) (hg : 0 < gasGain * rel) (h1 : gasGain * rel ≤ g2)
    (f0 : Fair P₁ b0 survive n) (f3 : ∀ mu, 0 ≤ mu → FairPoisson P₃ q mu) (f2 : ∀ d, 0 ≤ d → Fair P₄ b2 pDpe d) :
    ∫ ω₁, ∫ ω₂, ∫ ω₃, ∫ ω₄, ∫ z, signal2 (b0 ω₁) (hybridBinomial rnd threshold z1 (u ω₂)) (b2 ω₄) (q ω₃) z survive g2 gasGain pDpe rel lce
      bias smear lce n ∂(gaussianReal 0 1) ∂P₄ ∂P₃ ∂P₂ ∂P₁ = gasGain * rel * n * (1 + bias) := by
  rw [s2_mean P₁ P₂ P₃ P₄ b0 (fun ω => hybridBinomial rnd threshold z1 (u ω)) q b2 ok0 (fun ω => hybridBinomial_ok _ _ _ _) okq survive g2
    gasGain pDpe rel lce bias 1 smear n hn hp hs hl hg f0 ?_ f3 f2, one_mul]
  intro d hd _
  have h2 : 1 ≤ g2 / (gasGain * rel) := (one_le_div hg).2 h1
  have : ∀ ω, hybridBinomial rnd threshold z1 (u ω) (.fin (g2 / (gasGain * rel))) d = d := by
    intro ω
    simp only [hybridBinomial]
    rw [Randgen.hybrid_eq, if_pos h2]
    split <;> omega
  simp only [this]
  simp

/-- **C98 (sampler).** The shipped hybrid sampler has the mean of the binomial distribution for counts up to its threshold. -/
theorem C98_hybrid_fair (rnd : ℝ → ℤ) (threshold n : Nat) (p z : ℝ) (ht : n ≤ threshold) (h0 : 0 ≤ p) (h1 : p ≤ 1) :
    Fair (Randgen.trialsLaw threshold) (fun u => hybridBinomial rnd threshold z (Randgen.padded u)) p n :=
  hybrid_fair _ _ rnd threshold n p z ht h0 h1 (fun j hj => padded_preserving threshold j (lt_of_lt_of_le hj ht))

/-- **C98 (S1 with the shipped sampler).** Up to as many photons as the threshold of the hybrid sampler nothing is assumed about draws except
that they are uniform and normal numbers. -/
theorem C98_cs1_shipped (rnd1 rnd2 : ℝ → ℤ) (threshold n : Nat) (z1 z2 g1 pDpe lce bias : ℝ) (smear : ℝ → ℝ) (ht : n ≤ threshold)
    (hp : 0 ≤ pDpe) (hp1 : pDpe ≤ 1) (hl : 0 < lce) (hg : 0 ≤ g1) (h1 : g1 * lce ≤ 1 + pDpe) :
    ∫ u, ∫ v, ∫ z, signal1 (hybridBinomial rnd1 threshold z1 (Randgen.padded u)) (hybridBinomial rnd2 threshold z2 (Randgen.padded v)) z
      g1 pDpe lce bias smear lce n ∂(gaussianReal 0 1) ∂(Randgen.trialsLaw threshold) ∂(Randgen.trialsLaw threshold) = g1 * n * (1 + bias) := by
  have hd : 0 < 1 + pDpe := by linarith
  have h := C98_cs1 (Randgen.trialsLaw threshold) (Randgen.trialsLaw threshold)
    (fun u => hybridBinomial rnd1 threshold z1 (Randgen.padded u)) (fun v => hybridBinomial rnd2 threshold z2 (Randgen.padded v))
    (fun u => hybridBinomial_ok _ _ _ _) g1 pDpe lce bias smear n (by omega) hp hl hg h1
    (C98_hybrid_fair rnd1 threshold n _ z1 ht (by positivity) ((div_le_one hd).2 h1)) ?_
  · simpa using h
  · intro d h0 h1
    lift d to ℕ using h0
    exact C98_hybrid_fair rnd2 threshold d pDpe z2 (le_trans (by exact_mod_cast h1) ht) hp hp1

/-- **C98 (S2 with ideal draws).** Binomial counts from as many uniform trials as there are, Poisson counts from the quantile of a uniform
number: every assumption of `C98_cs2` holds. -/
theorem C98_cs2_ideal (survive g2 gasGain pDpe rel lce bias : ℝ) (smear : ℝ → ℝ) (n : ℤ) (hn : 0 ≤ n)
    (hp : 0 ≤ pDpe) (hp1 : pDpe ≤ 1) (hs : 0 < survive) (hs1 : survive ≤ 1) (hl : 0 < lce) (hg : 0 < gasGain * rel) (hg2 : 0 ≤ g2)
    (h1 : g2 ≤ gasGain * rel) :
    ∫ u, ∫ v, ∫ w, ∫ x, ∫ z, signal2 (trialsBinomial u) (trialsBinomial v) (trialsBinomial x) (quantilePoisson w) z survive g2 gasGain pDpe rel
      lce bias smear lce n ∂(gaussianReal 0 1) ∂manyTrials ∂Randgen.unif ∂manyTrials ∂manyTrials = g2 * n * (1 + bias) :=
  C98_cs2 manyTrials manyTrials Randgen.unif manyTrials trialsBinomial trialsBinomial quantilePoisson trialsBinomial trialsBinomial_ok
    trialsBinomial_ok quantilePoisson_ok survive g2 gasGain pDpe rel lce bias smear n hn hp hs hl hg
    (trials_fair _ hs.le hs1 n hn) (fun d h0 _ => trials_fair _ (by positivity) ((div_le_one hg).2 h1) d h0)
    (fun mu h => quantile_fair h) (fun d h0 => trials_fair _ hp hp1 d h0)

/-- **C98 (energy).** The energy reconstructed from both corrected signals, `W (cS1 / g1 + cS2 / g2)`, averages to the energy of the quanta
that left the interaction, when the reconstruction has no bias. -/
theorem C98_energy (rnd1 rnd2 : ℝ → ℤ) (threshold ph : Nat) (el : ℤ) (z1 z2 w g1 g2 survive gasGain pDpe rel lce1 lce2 : ℝ)
    (smear1 smear2 : ℝ → ℝ) (ht : ph ≤ threshold) (he : 0 ≤ el)
    (hp : 0 ≤ pDpe) (hp1 : pDpe ≤ 1) (hl1 : 0 < lce1) (hg1 : 0 < g1) (h1 : g1 * lce1 ≤ 1 + pDpe)
    (hs : 0 < survive) (hs1 : survive ≤ 1) (hl2 : 0 < lce2) (hg : 0 < gasGain * rel) (hg2 : 0 < g2) (h2 : g2 ≤ gasGain * rel) :
    w * ((∫ u, ∫ v, ∫ z, signal1 (hybridBinomial rnd1 threshold z1 (Randgen.padded u)) (hybridBinomial rnd2 threshold z2 (Randgen.padded v)) z
        g1 pDpe lce1 0 smear1 lce1 ph ∂(gaussianReal 0 1) ∂(Randgen.trialsLaw threshold) ∂(Randgen.trialsLaw threshold)) / g1
      + (∫ u, ∫ v, ∫ w, ∫ x, ∫ z, signal2 (trialsBinomial u) (trialsBinomial v) (trialsBinomial x) (quantilePoisson w) z survive g2 gasGain pDpe
        rel lce2 0 smear2 lce2 el ∂(gaussianReal 0 1) ∂manyTrials ∂Randgen.unif ∂manyTrials ∂manyTrials) / g2)
      = w * ((ph + el : ℤ) : ℝ) := by
  rw [C98_cs1_shipped rnd1 rnd2 threshold ph z1 z2 g1 pDpe lce1 0 smear1 ht hp hp1 hl1 hg1.le h1,
    C98_cs2_ideal survive g2 gasGain pDpe rel lce2 0 smear2 el he hp hp1 hs hs1 hl2 hg hg2.le h2]
  push_cast
  field_simp
  ring

/-- A case of C98 that is not trivial: thirty photons, `g1 = 0.15`, one fifth of double photoelectrons, a tenth less light. -/
example (smear : ℝ → ℝ) : ∫ u, ∫ v, ∫ z, signal1 (hybridBinomial Int.floor 50 0 (Randgen.padded u)) (hybridBinomial Int.floor 50 0 (Randgen.padded v)) z
    0.15 0.2 0.9 0 smear 0.9 (30 : ℕ) ∂(gaussianReal 0 1) ∂(Randgen.trialsLaw 50) ∂(Randgen.trialsLaw 50) = 4.5 := by
  rw [C98_cs1_shipped Int.floor Int.floor 50 30 0 0 0.15 0.2 0.9 0 smear (by norm_num) (by norm_num) (by norm_num) (by norm_num) (by norm_num)
    (by norm_num)]
  norm_num

/-- A case of C98 that is not trivial: a hundred electrons of which nine tenths survive, `g2 = 16`, a gas gain of thirty. -/
example (smear : ℝ → ℝ) : ∫ u, ∫ v, ∫ w, ∫ x, ∫ z, signal2 (trialsBinomial u) (trialsBinomial v) (trialsBinomial x) (quantilePoisson w) z
    0.9 16 30 0.2 1.1 0.95 0 smear 0.95 100 ∂(gaussianReal 0 1) ∂manyTrials ∂Randgen.unif ∂manyTrials ∂manyTrials = 1600 := by
  rw [C98_cs2_ideal 0.9 16 30 0.2 1.1 0.95 0 smear 100 (by norm_num) (by norm_num) (by norm_num) (by norm_num) (by norm_num) (by norm_num)
    (by norm_num) (by norm_num) (by norm_num)]
  norm_num

/-- **C98 (position).** The reconstructed position averages to the true one, the mean square distance between both is the square of the
resolution, the depth is the true one.  The reconstructed radius is the distance of the reconstructed position from the axis, so its square
averages to more than that of the true radius. -/
theorem C98_position (reso x y z : ℝ) :
    ∫ n1, ∫ n2, (positionRecon reso x y z n1 n2).1 ∂(gaussianReal 0 1) ∂(gaussianReal 0 1) = x ∧
    ∫ n1, ∫ n2, (positionRecon reso x y z n1 n2).2.1 ∂(gaussianReal 0 1) ∂(gaussianReal 0 1) = y ∧
    (∀ n1 n2, (positionRecon reso x y z n1 n2).2.2.1 = z) ∧
    ∫ n1, ∫ n2, (((positionRecon reso x y z n1 n2).1 - x) ^ 2 + ((positionRecon reso x y z n1 n2).2.1 - y) ^ 2) ∂(gaussianReal 0 1)
      ∂(gaussianReal 0 1) = reso ^ 2 ∧
    (∀ n1 n2, 0 ≤ (positionRecon reso x y z n1 n2).2.2.2 ∧
      (positionRecon reso x y z n1 n2).2.2.2 ^ 2 = (positionRecon reso x y z n1 n2).1 ^ 2 + (positionRecon reso x y z n1 n2).2.1 ^ 2) ∧
    ∫ n1, ∫ n2, (positionRecon reso x y z n1 n2).2.2.2 ^ 2 ∂(gaussianReal 0 1) ∂(gaussianReal 0 1) = x ^ 2 + y ^ 2 + reso ^ 2 := by
  have hs : (reso / √2) ^ 2 = reso ^ 2 / 2 := by rw [div_pow, Real.sq_sqrt (by norm_num)]
  have hi := N_int_id
  have hi2 := N_int_sq
  have hlin : ∀ a b c : ℝ, ∫ n, a * n ^ 2 + b * n + c ∂(gaussianReal 0 1) = a + c := by
    intro a b c
    have h1 : Integrable (fun n : ℝ => a * n ^ 2 + b * n) (gaussianReal 0 1) := (hi2.const_mul a).add (hi.const_mul b)
    rw [integral_add h1 (integrable_const _), integral_add (hi2.const_mul a) (hi.const_mul b),
      integral_const_mul, integral_const_mul, N_sq, N_id]
    simp
  have hr : ∀ n1 n2, (positionRecon reso x y z n1 n2).2.2.2 ^ 2 = (positionRecon reso x y z n1 n2).1 ^ 2 + (positionRecon reso x y z n1 n2).2.1 ^ 2 := by
    intro n1 n2
    show √(_ ^ 2 + _ ^ 2) ^ 2 = _
    rw [Real.sq_sqrt (by positivity)]
    rfl
  refine ⟨?_, ?_, fun _ _ => rfl, ?_, fun n1 n2 => ⟨Real.sqrt_nonneg _, hr n1 n2⟩, ?_⟩
  · have : ∀ n1 n2, (positionRecon reso x y z n1 n2).1 = 0 * n1 ^ 2 + reso / √2 * n1 + x := fun n1 n2 => by simp only [positionRecon]; ring
    simp only [this]
    simp only [integral_const, probReal_univ, one_smul]
    rw [hlin]; ring
  · have : ∀ n1 n2, (positionRecon reso x y z n1 n2).2.1 = 0 * n2 ^ 2 + reso / √2 * n2 + y := fun n1 n2 => by simp only [positionRecon]; ring
    simp only [this, hlin]
    simp
  · have : ∀ n1 n2, ((positionRecon reso x y z n1 n2).1 - x) ^ 2 + ((positionRecon reso x y z n1 n2).2.1 - y) ^ 2
        = reso ^ 2 / 2 * n2 ^ 2 + 0 * n2 + reso ^ 2 / 2 * n1 ^ 2 := fun n1 n2 => by simp only [positionRecon]; rw [← hs]; ring
    simp only [this, hlin]
    have h2 : ∀ n1 : ℝ, reso ^ 2 / 2 + reso ^ 2 / 2 * n1 ^ 2 = reso ^ 2 / 2 * n1 ^ 2 + 0 * n1 + reso ^ 2 / 2 := fun n1 => by ring
    simp only [h2, hlin]
    ring
  · simp only [hr]
    have : ∀ n1 n2, (positionRecon reso x y z n1 n2).1 ^ 2 + (positionRecon reso x y z n1 n2).2.1 ^ 2
        = reso ^ 2 / 2 * n2 ^ 2 + 2 * y * (reso / √2) * n2 + (y ^ 2 + (x + reso / √2 * n1) ^ 2) := fun n1 n2 => by
      simp only [positionRecon]; rw [← hs]; ring
    simp only [this, hlin]
    have h2 : ∀ n1 : ℝ, reso ^ 2 / 2 + (y ^ 2 + (x + reso / √2 * n1) ^ 2)
        = reso ^ 2 / 2 * n1 ^ 2 + 2 * x * (reso / √2) * n1 + (reso ^ 2 / 2 + y ^ 2 + x ^ 2) := fun n1 => by rw [← hs]; ring
    simp only [h2, hlin]
    ring

/-- A case of C98 that is not trivial: a resolution of half a centimetre at the radius thirty. -/
example : ∫ n1, ∫ n2, (positionRecon 0.5 30 0 (-70) n1 n2).2.2.2 ^ 2 ∂(gaussianReal 0 1) ∂(gaussianReal 0 1) = 900.25 := by
  rw [(C98_position 0.5 30 0 (-70)).2.2.2.2.2]
  norm_num

end Verif.Plugins
