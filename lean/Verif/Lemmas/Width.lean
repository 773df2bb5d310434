/-
Lemmas about Poisson distributed counts and about what follows them.
-/
import Verif.Spec.Width
import Verif.Lemmas.Counts
import Verif.Lemmas.Signals
import Verif.Props.Counts
import Mathlib.Probability.Distributions.Poisson.Basic

namespace Verif.Plugins
open Verif MeasureTheory ProbabilityTheory

variable {Ω Ω₁ Ω₂ Ω₃ Ω₄ : Type} [MeasurableSpace Ω] [MeasurableSpace Ω₁] [MeasurableSpace Ω₂] [MeasurableSpace Ω₃] [MeasurableSpace Ω₄]

/-- The Poisson weights. -/
noncomputable def poissonMass (mu : ℝ) (k : Nat) : ℝ := Real.exp (-mu) * mu ^ k / k.factorial

theorem poissonMass_nonneg (mu : ℝ) (h : 0 ≤ mu) (k : Nat) : 0 ≤ poissonMass mu k := by unfold poissonMass; positivity

theorem poissonMass_succ (mu : ℝ) (k : Nat) : poissonMass mu (k + 1) * ((k : ℝ) + 1) = mu * poissonMass mu k := by
  unfold poissonMass
  have : ((k.factorial : ℕ) : ℝ) ≠ 0 := by positivity
  have h2 : (k : ℝ) + 1 ≠ 0 := by positivity
  rw [Nat.factorial_succ]
  push_cast
  field_simp
  ring

theorem hasSum_of_eq {f g : Nat → ℝ} {a : ℝ} (h : HasSum g a) (e : ∀ k, f k = g k) : HasSum f a := by rwa [funext e]

theorem poisson_zeroth (mu : ℝ) (h : 0 ≤ mu) : HasSum (poissonMass mu) 1 := by
  lift mu to NNReal using h
  exact hasSum_one_poissonMeasure mu

theorem poisson_first (mu : ℝ) (h : 0 ≤ mu) : HasSum (fun k : Nat => poissonMass mu k * (k : ℝ)) mu := by
  have h1 := (poisson_zeroth mu h).mul_left mu
  rw [mul_one] at h1
  rw [← hasSum_nat_add_iff' 1]
  simp only [Finset.range_one, Finset.sum_singleton, Nat.cast_zero, mul_zero, sub_zero]
  refine hasSum_of_eq h1 fun k => ?_
  rw [← poissonMass_succ]
  push_cast
  ring

theorem poisson_second (mu : ℝ) (h : 0 ≤ mu) : HasSum (fun k : Nat => poissonMass mu k * ((k : ℝ) * (k - 1))) (mu ^ 2) := by
  have h1 := (poisson_first mu h).mul_left mu
  rw [← hasSum_nat_add_iff' 1]
  simp only [Finset.range_one, Finset.sum_singleton, Nat.cast_zero, zero_mul, mul_zero, sub_zero]
  rw [show mu ^ 2 = mu * mu by ring]
  refine hasSum_of_eq h1 fun k => ?_
  have := poissonMass_succ mu k
  push_cast
  linear_combination (k : ℝ) * this

/-- The polynomial functions of degree two of a Poisson distributed count. -/
theorem PoissonCount.quadratic {P : Measure Ω} [IsProbabilityMeasure P] {X : Ω → ℤ} {mu : ℝ} (h : 0 ≤ mu) (hX : PoissonCount P X mu)
    (a b c : ℝ) : Integrable (fun ω => a * (X ω : ℝ) ^ 2 + b * (X ω : ℝ) + c) P ∧
      ∫ ω, (a * (X ω : ℝ) ^ 2 + b * (X ω : ℝ) + c) ∂P = a * (mu ^ 2 + mu) + b * mu + c := by
  have hmn : Measurable (fun ω => (X ω).toNat) := (measurable_of_countable Int.toNat).comp hX.measurable
  have hmap : P.map (fun ω => (X ω).toNat) = poissonMeasure mu.toNNReal := by
    refine Measure.ext_of_singleton fun k => ?_
    rw [Measure.map_apply hmn (measurableSet_singleton k), poissonMeasure_singleton]
    have e : (fun ω => (X ω).toNat) ⁻¹' {k} = {ω | X ω = k} := by
      ext ω
      have := hX.nonneg ω
      simp only [Set.mem_preimage, Set.mem_singleton_iff, Set.mem_ofPred_eq]
      omega
    rw [e, hX.law, Real.coe_toNNReal mu h]
  have hs : HasSum (fun k : Nat => poissonMass mu k * (a * (k : ℝ) ^ 2 + b * k + c)) (a * (mu ^ 2 + mu) + b * mu + c) := by
    have := (((poisson_second mu h).add (poisson_first mu h)).mul_left a).add (((poisson_first mu h).mul_left b).add
      ((poisson_zeroth mu h).mul_left c))
    rw [show a * (mu ^ 2 + mu) + b * mu + c = a * (mu ^ 2 + mu) + (b * mu + c * 1) by ring]
    refine hasSum_of_eq this fun k => ?_
    ring
  have hint : Integrable (fun k : Nat => a * (k : ℝ) ^ 2 + b * k + c) (poissonMeasure mu.toNNReal) := by
    rw [integrable_poissonMeasure_iff, Real.coe_toNNReal mu h]
    have h1 := (((poisson_second mu h).add (poisson_first mu h)).mul_left |a|).add (((poisson_first mu h).mul_left |b|).add
      ((poisson_zeroth mu h).mul_left |c|))
    refine Summable.of_nonneg_of_le (fun k => mul_nonneg (poissonMass_nonneg mu h k) (norm_nonneg _)) (fun k => ?_) h1.summable
    have hb : ‖a * (k : ℝ) ^ 2 + b * k + c‖ ≤ |a| * (k : ℝ) ^ 2 + |b| * k + |c| := by
      rw [Real.norm_eq_abs]
      calc _ ≤ |a * (k : ℝ) ^ 2| + |b * k| + |c| := by
            refine (abs_add_le _ _).trans (add_le_add (abs_add_le _ _) le_rfl)
        _ = _ := by rw [abs_mul, abs_mul, abs_of_nonneg (by positivity : (0 : ℝ) ≤ (k : ℝ) ^ 2), abs_of_nonneg (by positivity : (0 : ℝ) ≤ k)]
    refine (mul_le_mul_of_nonneg_left hb (poissonMass_nonneg mu h k)).trans (le_of_eq ?_)
    ring
  have hcast : ∀ ω, (X ω : ℝ) = ((X ω).toNat : ℝ) := by
    intro ω
    have := Int.toNat_of_nonneg (hX.nonneg ω)
    exact_mod_cast congrArg (fun k : ℤ => (k : ℝ)) this.symm
  simp only [hcast]
  rw [← hmap] at hint
  refine ⟨hint.comp_measurable hmn, ?_⟩
  rw [← integral_map (φ := fun ω => (X ω).toNat) (f := fun k : Nat => a * (k : ℝ) ^ 2 + b * k + c) hmn.aemeasurable hint.aestronglyMeasurable, hmap,
    integral_poissonMeasure, Real.coe_toNNReal mu h]
  exact hs.tsum_eq

/-- Double photoelectrons: the mean squared distance of `k` photons and their double photoelectrons from a number `m`. -/
theorem dpe_square {P : Measure Ω} [IsProbabilityMeasure P] {b : Ω → Binomial} {p : ℝ} (p0 : 0 ≤ p) (p1 : p ≤ 1) (k : ℤ) (hk : 0 ≤ k)
    (hb : BinomialSampler P b k.toNat p) (m : ℝ) :
    Integrable (fun ω => ((b ω (.fin p) k : ℤ) : ℝ)) P ∧ ∫ ω, ((b ω (.fin p) k : ℤ) : ℝ) ∂P = k * p ∧
    ∫ ω, (((k : ℝ) + (b ω (.fin p) k : ℤ)) - m) ^ 2 ∂P = (1 + p) ^ 2 * (k : ℝ) ^ 2 + (p * (1 - p) - 2 * (1 + p) * m) * k + m ^ 2 := by
  have hd : BinomialCount P (fun ω => b ω (.fin p) k) k.toNat p := by
    have := hb k.toNat le_rfl
    simpa only [Int.toNat_of_nonneg hk] using this
  have hc : ((k.toNat : ℕ) : ℝ) = (k : ℝ) := by exact_mod_cast congrArg (fun j : ℤ => (j : ℝ)) (Int.toNat_of_nonneg hk)
  have hi := hd.integrable (fun j => (j : ℝ))
  have hmean := hd.mean p0 p1
  have hvar := hd.variance p0 p1
  rw [hc] at hmean hvar
  refine ⟨hi, hmean, ?_⟩
  have e : (fun ω => (((k : ℝ) + (b ω (.fin p) k : ℤ)) - m) ^ 2)
      = fun ω => ((((b ω (.fin p) k : ℤ) : ℝ) - k * p) ^ 2 + 2 * (k * (1 + p) - m) * ((b ω (.fin p) k : ℤ) : ℝ))
        + ((k * (1 + p) - m) ^ 2 - 2 * (k * (1 + p) - m) * (k * p)) := by
    funext ω
    ring
  have i1 := hd.integrable (fun j => ((j : ℝ) - k * p) ^ 2)
  have i2 := hi.const_mul (2 * (k * (1 + p) - m))
  have i12 : Integrable (fun ω => (((b ω (.fin p) k : ℤ) : ℝ) - k * p) ^ 2 + 2 * (k * (1 + p) - m) * ((b ω (.fin p) k : ℤ) : ℝ)) P := i1.add i2
  rw [e, integral_add i12 (integrable_const _), integral_add i1 i2, hvar, integral_const_mul, hmean]
  simp
  ring

/-- A number shifted and scaled. -/
theorem shifted {P : Measure Ω} [IsProbabilityMeasure P] {X : Ω → ℝ} (hi : Integrable X P) (a m : ℝ) :
    ∫ ω, a * (X ω - m) ∂P = a * (∫ ω, X ω ∂P - m) := by
  rw [integral_const_mul, integral_sub hi (integrable_const m)]
  simp

theorem area_integrable (bias smear pe c : ℝ) : Integrable (fun z => area bias smear z pe / c) (gaussianReal 0 1) := by
  have h : (fun z => area bias smear z pe / c) = fun z => pe * (1 + bias) / c + (pe * smear / c) * z := by
    funext z; unfold area; ring
  rw [h]
  exact (integrable_const _).add (N_int_id.const_mul _)

/-- The corrected S1 of an event with `n` photons, shifted and scaled. -/
theorem signal1_layers (P₁ : Measure Ω₁) (P₂ : Measure Ω₂) [IsProbabilityMeasure P₁] [IsProbabilityMeasure P₂] (b1 : Ω₁ → Binomial)
    (b2 : Ω₂ → Binomial) (ok : ∀ ω, BinomialOk (b1 ω)) (g1 pDpe lce bias : ℝ) (smear : ℝ → ℝ) (n : ℤ) (hn : 0 ≤ n)
    (hp : 0 ≤ pDpe) (hl : 0 < lce) (hg : 0 ≤ g1) (h1 : g1 * lce ≤ 1 + pDpe)
    (f1 : Fair P₁ b1 (g1 * lce / (1 + pDpe)) n) (f2 : ∀ d, 0 ≤ d → d ≤ n → Fair P₂ b2 pDpe d) (a m : ℝ) :
    ∫ ω₁, ∫ ω₂, ∫ z, a * (signal1 (b1 ω₁) (b2 ω₂) z g1 pDpe lce bias smear lce n - m) ∂(gaussianReal 0 1) ∂P₂ ∂P₁
      = a * (g1 * n * (1 + bias) - m) := by
  have hd : (1 : ℝ) + pDpe ≠ 0 := by linarith
  have jz : ∀ ω₁ ω₂, Integrable (fun z => signal1 (b1 ω₁) (b2 ω₂) z g1 pDpe lce bias smear lce n) (gaussianReal 0 1) :=
    fun ω₁ ω₂ => area_integrable _ _ _ _
  have j2 : ∀ ω₁, Integrable (fun ω₂ => ∫ z, signal1 (b1 ω₁) (b2 ω₂) z g1 pDpe lce bias smear lce n ∂(gaussianReal 0 1)) P₂ := by
    intro ω₁
    have hr : 0 ≤ photonDetection (b1 ω₁) (.fin g1) (.fin pDpe) (.fin lce) n ∧ photonDetection (b1 ω₁) (.fin g1) (.fin pDpe) (.fin lce) n ≤ n :=
      ok ω₁ _ n hn
    have hi := (f2 _ hr.1 hr.2).1
    simp only [signal1, cs1, area_mean, s1PE]
    push_cast
    exact ((hi.add (integrable_const _)).mul_const _).div_const _
  have j1 : Integrable (fun ω₁ => ∫ ω₂, ∫ z, signal1 (b1 ω₁) (b2 ω₂) z g1 pDpe lce bias smear lce n ∂(gaussianReal 0 1) ∂P₂) P₁ := by
    simp only [fun ω₁ => s1_given P₂ (b1 ω₁) b2 (ok ω₁) g1 pDpe lce bias smear lce n hn f2]
    refine Integrable.mul_const ?_ _
    simp only [detection_eq g1 pDpe lce _ n hp (by positivity) h1]
    exact f1.1
  simp only [fun ω₁ ω₂ => shifted (jz ω₁ ω₂) a m, fun ω₁ => shifted (j2 ω₁) a m]
  rw [shifted j1 a m, s1_mean P₁ P₂ b1 b2 ok g1 pDpe lce bias (g1 * lce / (1 + pDpe)) smear lce n hn ?_ f2]
  · congr 2
    field_simp
  · simp only [detection_eq g1 pDpe lce _ n hp (by positivity) h1]
    exact f1.2

/-- The corrected S2 of an event with `n` electrons, shifted and scaled. -/
theorem signal2_layers (P₁ : Measure Ω₁) (P₂ : Measure Ω₂) (P₃ : Measure Ω₃) (P₄ : Measure Ω₄) [IsProbabilityMeasure P₁]
    [IsProbabilityMeasure P₂] [IsProbabilityMeasure P₃] [IsProbabilityMeasure P₄] (b0 : Ω₁ → Binomial) (b1 : Ω₂ → Binomial) (q : Ω₃ → Poisson)
    (b2 : Ω₄ → Binomial) (ok0 : ∀ ω, BinomialOk (b0 ω)) (ok1 : ∀ ω, BinomialOk (b1 ω)) (okq : ∀ ω, PoissonOk (q ω))
    (survive g2 gasGain pDpe rel lce bias : ℝ) (smear : ℝ → ℝ) (n : ℤ) (hn : 0 ≤ n)
    (hp : 0 ≤ pDpe) (hs : 0 < survive) (hl : 0 < lce) (hg : 0 < gasGain * rel)
    (f0 : Fair P₁ b0 survive n) (f1 : ∀ d, 0 ≤ d → d ≤ n → Fair P₂ b1 (g2 / (gasGain * rel)) d)
    (f3 : ∀ mu, 0 ≤ mu → FairPoisson P₃ q mu) (f2 : ∀ d, 0 ≤ d → Fair P₄ b2 pDpe d) (a m : ℝ) :
    ∫ ω₁, ∫ ω₂, ∫ ω₃, ∫ ω₄, ∫ z, a * (signal2 (b0 ω₁) (b1 ω₂) (b2 ω₄) (q ω₃) z survive g2 gasGain pDpe rel lce bias smear lce n - m)
      ∂(gaussianReal 0 1) ∂P₄ ∂P₃ ∂P₂ ∂P₁ = a * (g2 * n * (1 + bias) - m) := by
  have hd : (1 : ℝ) + pDpe ≠ 0 := by linarith
  have r0 : ∀ ω₁, 0 ≤ b0 ω₁ (.fin survive) n ∧ b0 ω₁ (.fin survive) n ≤ n := fun ω₁ => ok0 ω₁ _ n hn
  have r1 : ∀ ω₁ ω₂, 0 ≤ b1 ω₂ (.fin (g2 / (gasGain * rel))) (b0 ω₁ (.fin survive) n) := fun ω₁ ω₂ => (ok1 ω₂ _ _ (r0 ω₁).1).1
  have hmu : ∀ ω₁ ω₂, 0 ≤ (b1 ω₂ (.fin (g2 / (gasGain * rel))) (b0 ω₁ (.fin survive) n) : ℝ) * (gasGain * rel * lce / (1 + pDpe)) :=
    fun ω₁ ω₂ => mul_nonneg (by exact_mod_cast r1 ω₁ ω₂) (by positivity)
  have jz : ∀ ω₁ ω₂ ω₃ ω₄, Integrable (fun z => signal2 (b0 ω₁) (b1 ω₂) (b2 ω₄) (q ω₃) z survive g2 gasGain pDpe rel lce bias smear lce n)
      (gaussianReal 0 1) := fun ω₁ ω₂ ω₃ ω₄ => (area_integrable _ _ _ _).div_const _
  have j4 : ∀ ω₁ ω₂ ω₃, Integrable (fun ω₄ => ∫ z, signal2 (b0 ω₁) (b1 ω₂) (b2 ω₄) (q ω₃) z survive g2 gasGain pDpe rel lce bias smear lce n
      ∂(gaussianReal 0 1)) P₄ := by
    intro ω₁ ω₂ ω₃
    have hr := okq ω₃ (.fin ((b1 ω₂ (.fin (g2 / (gasGain * rel))) (b0 ω₁ (.fin survive) n) : ℝ) * (gasGain * rel * lce / (1 + pDpe))))
      (by simpa using hmu ω₁ ω₂)
    have hi := (f2 _ hr).1
    simp only [signal2, cs2, div_div, area_mean, s2_eq g2 gasGain pDpe rel lce _ _ _ _ hp hg.ne', electronDrifted]
    push_cast
    exact (((integrable_const _).add hi).mul_const _).div_const _
  have j3 : ∀ ω₁ ω₂, Integrable (fun ω₃ => ∫ ω₄, ∫ z, signal2 (b0 ω₁) (b1 ω₂) (b2 ω₄) (q ω₃) z survive g2 gasGain pDpe rel lce bias smear lce n
      ∂(gaussianReal 0 1) ∂P₄) P₃ := by
    intro ω₁ ω₂
    simp only [fun ω₃ => s2_given_photons P₄ (b0 ω₁) (b1 ω₂) b2 (ok0 ω₁) (ok1 ω₂) (q ω₃) (okq ω₃) survive g2 gasGain pDpe rel lce bias smear n hn hp hs
      hl hg f2]
    exact (f3 _ (hmu ω₁ ω₂)).1.mul_const _
  have j2 : ∀ ω₁, Integrable (fun ω₂ => ∫ ω₃, ∫ ω₄, ∫ z, signal2 (b0 ω₁) (b1 ω₂) (b2 ω₄) (q ω₃) z survive g2 gasGain pDpe rel lce bias smear lce n
      ∂(gaussianReal 0 1) ∂P₄ ∂P₃) P₂ := by
    intro ω₁
    simp only [fun ω₂ => s2_given_electrons P₃ P₄ (b0 ω₁) (b1 ω₂) b2 (ok0 ω₁) (ok1 ω₂) q okq survive g2 gasGain pDpe rel lce bias smear n hn hp hs
      hl hg f3 f2]
    exact (f1 _ (r0 ω₁).1 (r0 ω₁).2).1.mul_const _
  have j1 : Integrable (fun ω₁ => ∫ ω₂, ∫ ω₃, ∫ ω₄, ∫ z, signal2 (b0 ω₁) (b1 ω₂) (b2 ω₄) (q ω₃) z survive g2 gasGain pDpe rel lce bias smear lce n
      ∂(gaussianReal 0 1) ∂P₄ ∂P₃ ∂P₂) P₁ := by
    simp only [fun ω₁ ω₂ => s2_given_electrons P₃ P₄ (b0 ω₁) (b1 ω₂) b2 (ok0 ω₁) (ok1 ω₂) q okq survive g2 gasGain pDpe rel lce bias smear n hn hp hs
      hl hg f3 f2, integral_mul_const, fun ω₁ => (f1 _ (r0 ω₁).1 (r0 ω₁).2).2]
    exact (f0.1.const_mul _).mul_const _
  simp only [fun ω₁ ω₂ ω₃ ω₄ => shifted (jz ω₁ ω₂ ω₃ ω₄) a m, fun ω₁ ω₂ ω₃ => shifted (j4 ω₁ ω₂ ω₃) a m, fun ω₁ ω₂ => shifted (j3 ω₁ ω₂) a m,
    fun ω₁ => shifted (j2 ω₁) a m]
  rw [shifted j1 a m, s2_mean P₁ P₂ P₃ P₄ b0 b1 q b2 ok0 ok1 okq survive g2 gasGain pDpe rel lce bias (g2 / (gasGain * rel)) smear n hn hp hs hl hg f0
    (fun d h0 h1 => (f1 d h0 h1).2) f3 f2, div_mul_cancel₀ _ hg.ne']

/-- The first `n` of many numbers are `n` independent numbers. -/
theorem manyTrials_first (n : Nat) : MeasurePreserving (fun (u : Nat → ℝ) (i : Fin n) => u i) manyTrials (Randgen.trialsLaw n) := by
  have hmeas : Measurable (fun (u : Nat → ℝ) (i : Fin n) => u i) := by fun_prop
  refine ⟨hmeas, ?_⟩
  change _ = Measure.pi (fun _ : Fin n => Randgen.unif)
  refine (Measure.pi_eq fun s hs => ?_).symm
  rw [Measure.map_apply hmeas (MeasurableSet.univ_pi hs)]
  have hpre : (fun (u : Nat → ℝ) (i : Fin n) => u i) ⁻¹' Set.univ.pi s
      = Set.pi (Finset.range n : Set Nat) (fun j => if h : j < n then s ⟨j, h⟩ else Set.univ) := by
    ext u
    simp only [Set.mem_preimage, Set.mem_pi, Set.mem_univ, forall_true_left, Finset.coe_range, Set.mem_Iio]
    constructor
    · intro h j hj
      rw [dif_pos hj]
      exact h ⟨j, hj⟩
    · intro h i
      have := h i i.2
      rw [dif_pos i.2] at this
      exact this
  rw [hpre, manyTrials, Measure.infinitePi_pi _ (fun j hj => ?_), Finset.prod_range]
  · refine Finset.prod_congr rfl fun i _ => ?_
    rw [dif_pos i.2]
  · split
    · exact hs _
    · exact MeasurableSet.univ

/-- The ideal binomial sampler draws from the binomial distribution. -/
theorem trials_sampler (p : ℝ) (h0 : 0 ≤ p) (h1 : p ≤ 1) (N : Nat) : BinomialSampler manyTrials trialsBinomial N p := by
  intro n _
  have hs := C103_hybrid (fun _ => 0) n p 0 h0 h1 n le_rfl
  have he : ∀ u : Nat → ℝ, trialsBinomial u (.fin p) n = hybridBinomial (fun _ => 0) n 0 (Randgen.padded (fun i : Fin n => u i)) (.fin p) n := by
    intro u
    simp only [trialsBinomial, hybridBinomial, Int.toNat_natCast]
    rcases h0.eq_or_lt with h0' | h0'
    · rw [Randgen.hybrid_eq, Randgen.hybrid_eq, if_pos h0'.symm.le, if_pos h0'.symm.le]
    · rcases h1.eq_or_lt with h1' | h1'
      · rw [Randgen.hybrid_eq, Randgen.hybrid_eq, if_pos h1'.symm.le, if_pos h1'.symm.le]
      · rw [Randgen.hybrid_small _ _ n p _ _ le_rfl h0' h1', Randgen.hybrid_small _ _ n p _ _ le_rfl h0' h1']
        congr 2
        refine Finset.filter_congr fun j hj => ?_
        simp [Randgen.padded, Finset.mem_range.1 hj]
  simp only [he]
  refine ⟨hs.measurable.comp (manyTrials_first n).measurable, fun ω => hs.range _, fun k => ?_⟩
  rw [← hs.law k]
  exact (manyTrials_first n).measure_preimage ((hs.measurable (measurableSet_singleton (k : ℤ))).nullMeasurableSet)

/-- The ideal Poisson sampler draws from the Poisson distribution. -/
theorem quantile_sampler : PoissonSampler Randgen.unif quantilePoisson := by
  intro mu h
  refine ⟨?_, fun u => ?_, fun k => ?_⟩
  · exact measurable_from_top.comp (Randgen.poisQuantile_meas mu)
  · simp [quantilePoisson]
  · have := Randgen.poisQuantile_law h k
    simp only [quantilePoisson, Nat.cast_inj]
    exact this

end Verif.Plugins
