/-
Lemmas about mean signals.
-/
import Verif.Spec.Signals
import Verif.Lemmas.Plugins
import Verif.Lemmas.SkewMoments
import Verif.Lemmas.RandgenLaw
import Verif.Lemmas.GenPoisson

namespace Verif.Plugins
open Verif MeasureTheory ProbabilityTheory

theorem area_mean (bias smear pe c : ℝ) : ∫ z, area bias smear z pe / c ∂(gaussianReal 0 1) = pe * (1 + bias) / c := by
  have h : (fun z => area bias smear z pe / c) = fun z => pe * (1 + bias) / c + (pe * smear / c) * z := by
    funext z; unfold area; ring
  rw [h, integral_add (integrable_const _) (N_int_id.const_mul _), integral_const_mul, N_id]
  simp

theorem detection_eq (g1 pDpe lce : ℝ) (b : Binomial) (n : ℤ) (hp : 0 ≤ pDpe) (h0 : 0 ≤ g1 * lce) (h1 : g1 * lce ≤ 1 + pDpe) :
    photonDetection b (.fin g1) (.fin pDpe) (.fin lce) n = b (.fin (g1 * lce / (1 + pDpe))) n := by
  have hd : (1 : ℝ) + pDpe ≠ 0 := by linarith
  have h2 : 0 ≤ g1 * lce / (1 + pDpe) := div_nonneg h0 (by linarith)
  have h3 : g1 * lce / (1 + pDpe) ≤ 1 := (div_le_one (by linarith)).2 h1
  unfold photonDetection
  rw [XF.fin_mul_fin, XF.fin_add_fin, XF.fin_div_fin_of_ne _ hd]
  congr 1
  simp only [clip, jmax, jmin, XF.fin_lt_fin]
  rw [if_neg (not_lt.2 h2)]
  show (if (XF.fin 1) < XF.fin (g1 * lce / (1 + pDpe)) then _ else _) = _
  rw [if_neg (by simpa using h3)]

theorem detection_one (g1 pDpe lce : ℝ) (b : Binomial) (n : ℤ) (hp : 0 ≤ pDpe) (h1 : 1 + pDpe ≤ g1 * lce) :
    photonDetection b (.fin g1) (.fin pDpe) (.fin lce) n = b (.fin 1) n := by
  have hd : (1 : ℝ) + pDpe ≠ 0 := by linarith
  have h3 : 1 ≤ g1 * lce / (1 + pDpe) := (one_le_div (by linarith)).2 h1
  unfold photonDetection
  rw [XF.fin_mul_fin, XF.fin_add_fin, XF.fin_div_fin_of_ne _ hd]
  congr 1
  simp only [clip, jmax, jmin, XF.fin_lt_fin]
  rw [if_neg (not_lt.2 (by linarith : (0 : ℝ) ≤ g1 * lce / (1 + pDpe)))]
  show (if (XF.fin 1) < XF.fin (g1 * lce / (1 + pDpe)) then _ else _) = _
  rcases h3.eq_or_lt with h | h
  · rw [← h, if_neg (by simp)]
  · rw [if_pos (by simpa using h)]

theorem s2_eq (g2 gasGain pDpe rel lce : ℝ) (b1 b2 : Binomial) (q : Poisson) (n : ℤ) (hp : 0 ≤ pDpe) (hg : gasGain * rel ≠ 0) :
    (s2PE b1 b2 q (.fin g2) (.fin gasGain) (.fin pDpe) (.fin rel) (.fin lce) n).2.2 =
      q (.fin (b1 (.fin (g2 / (gasGain * rel))) n * (gasGain * rel * lce / (1 + pDpe)))) +
        b2 (.fin pDpe) (q (.fin (b1 (.fin (g2 / (gasGain * rel))) n * (gasGain * rel * lce / (1 + pDpe))))) := by
  have hd : (1 : ℝ) + pDpe ≠ 0 := by linarith
  unfold s2PE
  simp only [XF.fin_mul_fin, XF.fin_add_fin, XF.fin_div_fin_of_ne _ hd, XF.fin_div_fin_of_ne _ hg]

theorem trial_mean {Ω : Type} [MeasurableSpace Ω] (P : Measure Ω) (X : Ω → ℝ) (h3 : MeasurePreserving X P Randgen.unif) (p : ℝ) (h0 : 0 ≤ p)
    (h1 : p ≤ 1) : Integrable (fun ω => if X ω < p then (1 : ℝ) else 0) P ∧ ∫ ω, (if X ω < p then (1 : ℝ) else 0) ∂P = p := by
  have hms : MeasurableSet (Set.Iio p) := measurableSet_Iio
  have hf : (fun ω => if X ω < p then (1 : ℝ) else 0) = (Set.Iio p).indicator 1 ∘ X := by
    funext u
    simp [Set.indicator_apply]
  have hint : Integrable ((Set.Iio p).indicator (1 : ℝ → ℝ)) Randgen.unif := (integrable_const (1 : ℝ)).indicator hms
  refine ⟨?_, ?_⟩
  · rw [hf]; exact h3.integrable_comp_of_integrable hint
  · rw [hf]
    show ∫ ω, ((Set.Iio p).indicator (1 : ℝ → ℝ)) (X ω) ∂P = p
    have hmap := integral_map (μ := P) (φ := X) (f := (Set.Iio p).indicator (1 : ℝ → ℝ))
      h3.measurable.aemeasurable (by rw [h3.map_eq]; exact hint.aestronglyMeasurable)
    rw [← hmap, h3.map_eq, integral_indicator_one hms, Measure.real, Randgen.unif_lt p h0 h1, ENNReal.toReal_ofReal h0]

/-- The hybrid sampler is fair as long as the count is within its threshold and every trial it looks at is uniform. -/
theorem hybrid_fair {Ω : Type} [MeasurableSpace Ω] (P : Measure Ω) [IsProbabilityMeasure P] (X : Ω → Nat → ℝ) (rnd : ℝ → ℤ) (threshold n : Nat)
    (p z : ℝ) (ht : n ≤ threshold) (h0 : 0 ≤ p) (h1 : p ≤ 1) (hX : ∀ j < n, MeasurePreserving (fun ω => X ω j) P Randgen.unif) :
    Fair P (fun ω => hybridBinomial rnd threshold z (X ω)) p n := by
  unfold Fair
  simp only [hybridBinomial]
  rcases h0.eq_or_lt with h0' | h0'
  · have hz : ∀ u, Randgen.hybrid rnd threshold p n z u = 0 := by
      intro u
      rw [Randgen.hybrid_eq, if_pos h0'.symm.le, if_neg (by linarith : ¬ 1 ≤ p)]
      simp
    simp only [hz]
    simp [← h0']
  · rcases h1.eq_or_lt with h1' | h1'
    · have hz : ∀ u, Randgen.hybrid rnd threshold p n z u = n := by
        intro u
        rw [Randgen.hybrid_eq, if_pos h1'.symm.le]
        split
        · omega
        · rfl
      simp only [hz]
      simp [h1']
    · have he : ∀ ω, ((Randgen.hybrid rnd threshold p n z (X ω) : ℤ) : ℝ) = ∑ j ∈ Finset.range n, if X ω j < p then (1 : ℝ) else 0 := by
        intro u
        rw [Randgen.hybrid_small rnd threshold n p z _ ht h0' h1', Finset.card_filter]
        push_cast
        rfl
      simp only [he]
      have hj : ∀ j ∈ Finset.range n, _ := fun j h => trial_mean P _ (hX j (Finset.mem_range.1 h)) p h0 h1
      refine ⟨integrable_finset_sum _ (fun j h => (hj j h).1), ?_⟩
      rw [integral_finset_sum _ (fun j h => (hj j h).1), Finset.sum_congr rfl (fun j h => (hj j h).2)]
      simp
      ring

theorem padded_preserving (t j : Nat) (hj : j < t) :
    MeasurePreserving (fun u : Fin t → ℝ => Randgen.padded u j) (Randgen.trialsLaw t) Randgen.unif := by
  have h3 : MeasurePreserving (fun u : Fin t → ℝ => u ⟨j, hj⟩) (Randgen.trialsLaw t) Randgen.unif :=
    measurePreserving_eval (fun _ : Fin t => volume.restrict (Set.Ico (0 : ℝ) 1)) ⟨j, hj⟩
  have hpad : (fun u : Fin t → ℝ => Randgen.padded u j) = fun u => u ⟨j, hj⟩ := by funext u; simp [Randgen.padded, hj]
  rw [hpad]; exact h3

theorem hybridBinomial_ok (rnd : ℝ → ℤ) (threshold : Nat) (z : ℝ) (u : Nat → ℝ) : BinomialOk (hybridBinomial rnd threshold z u) := by
  intro p n hn
  cases p with
  | fin p =>
    have h := Randgen.hybrid_range rnd threshold p n z u
    exact ⟨h.1, h.2.trans (by omega)⟩
  | nan => exact ⟨le_rfl, hn⟩
  | ninf => exact ⟨le_rfl, hn⟩
  | pinf => exact ⟨le_rfl, hn⟩

/-- Poisson counts as quantiles of a uniform number have the right mean. -/
theorem quantile_mean {x : ℝ} (hx : 0 ≤ x) :
    Integrable (fun u => ((Randgen.poisQuantile x u : ℤ) : ℝ)) Randgen.unif ∧ ∫ u, ((Randgen.poisQuantile x u : ℤ) : ℝ) ∂Randgen.unif = x := by
  have hm : Measurable (fun u => (Randgen.poisQuantile x u : ℝ)) := measurable_from_top.comp (Randgen.poisQuantile_meas x)
  have hl : ∫⁻ u, ENNReal.ofReal (Randgen.poisQuantile x u : ℝ) ∂Randgen.unif = ENNReal.ofReal x := by
    have h1 : ∫⁻ u, ENNReal.ofReal (Randgen.poisQuantile x u : ℝ) ∂Randgen.unif
        = ∫⁻ n, (n : ENNReal) ∂(Randgen.unif.map (Randgen.poisQuantile x)) := by
      rw [lintegral_map measurable_from_top (Randgen.poisQuantile_meas x)]
      simp
    rw [h1, lintegral_countable', ← Randgen.poisW_mean hx]
    congr 1
    funext n
    rw [Measure.map_apply (Randgen.poisQuantile_meas x) (measurableSet_singleton n)]
    congr 1
    exact Randgen.poisQuantile_law hx n
  push_cast
  have hnn : 0 ≤ᵐ[Randgen.unif] fun u => (Randgen.poisQuantile x u : ℝ) := Filter.Eventually.of_forall (fun u => by simp)
  refine ⟨⟨hm.aestronglyMeasurable, ?_⟩, ?_⟩
  · rw [hasFiniteIntegral_iff_ofReal hnn, hl]; exact ENNReal.ofReal_lt_top
  · rw [integral_eq_lintegral_of_nonneg_ae hnn hm.aestronglyMeasurable, hl, ENNReal.toReal_ofReal hx]

theorem trials_fair (p : ℝ) (h0 : 0 ≤ p) (h1 : p ≤ 1) (n : ℤ) (hn : 0 ≤ n) : Fair manyTrials trialsBinomial p n := by
  lift n to ℕ using hn
  have h := hybrid_fair manyTrials (fun u => u) (fun _ => 0) n n p 0 le_rfl h0 h1 (fun j _ => measurePreserving_eval_infinitePi _ j)
  simpa [Fair, trialsBinomial] using h

theorem trialsBinomial_ok (u : Nat → ℝ) : BinomialOk (trialsBinomial u) := fun p n hn => hybridBinomial_ok _ _ _ _ p n hn

theorem quantile_fair {mu : ℝ} (h : 0 ≤ mu) : FairPoisson Randgen.unif quantilePoisson mu := by
  have := quantile_mean h
  simpa [FairPoisson, quantilePoisson] using this

theorem quantilePoisson_ok (u : ℝ) : PoissonOk (quantilePoisson u) := by
  intro x _
  cases x <;> simp [quantilePoisson]

variable {Ω₁ Ω₂ Ω₃ Ω₄ : Type} [MeasurableSpace Ω₁] [MeasurableSpace Ω₂] [MeasurableSpace Ω₃] [MeasurableSpace Ω₄]

/-- The mean of the corrected S1 when the detected photons are given. -/
theorem s1_given (P₂ : Measure Ω₂) [IsProbabilityMeasure P₂] (b1 : Binomial) (b2 : Ω₂ → Binomial) (ok : BinomialOk b1) (g1 pDpe lce bias : ℝ)
    (smear : ℝ → ℝ) (correction : ℝ) (n : ℤ) (hn : 0 ≤ n) (f2 : ∀ d, 0 ≤ d → d ≤ n → Fair P₂ b2 pDpe d) :
    ∫ ω₂, ∫ z, signal1 b1 (b2 ω₂) z g1 pDpe lce bias smear correction n ∂(gaussianReal 0 1) ∂P₂
      = (photonDetection b1 (.fin g1) (.fin pDpe) (.fin lce) n : ℝ) * ((1 + pDpe) * (1 + bias) / correction) := by
  have hr : 0 ≤ photonDetection b1 (.fin g1) (.fin pDpe) (.fin lce) n ∧ photonDetection b1 (.fin g1) (.fin pDpe) (.fin lce) n ≤ n :=
    ok _ n hn
  obtain ⟨hi, hm⟩ := f2 _ hr.1 hr.2
  simp only [signal1, cs1, area_mean, s1PE]
  set d := photonDetection b1 (.fin g1) (.fin pDpe) (.fin lce) n
  push_cast
  have : ∀ ω₂, ((b2 ω₂ (.fin pDpe) d : ℝ) + (d : ℝ)) * (1 + bias) / correction
      = ((1 + bias) / correction) * (b2 ω₂ (.fin pDpe) d : ℝ) + (d : ℝ) * (1 + bias) / correction := fun ω₂ => by ring
  simp only [this]
  rw [integral_add (hi.const_mul _) (integrable_const _), integral_const_mul, hm]
  simp
  ring

/-- The mean of the corrected S1 when a share `x` of the photons is detected on average. -/
theorem s1_mean (P₁ : Measure Ω₁) (P₂ : Measure Ω₂) [IsProbabilityMeasure P₁] [IsProbabilityMeasure P₂] (b1 : Ω₁ → Binomial)
    (b2 : Ω₂ → Binomial) (ok : ∀ ω, BinomialOk (b1 ω)) (g1 pDpe lce bias x : ℝ) (smear : ℝ → ℝ) (correction : ℝ) (n : ℤ) (hn : 0 ≤ n)
    (f1 : ∫ ω, ((photonDetection (b1 ω) (.fin g1) (.fin pDpe) (.fin lce) n : ℤ) : ℝ) ∂P₁ = x * n)
    (f2 : ∀ d, 0 ≤ d → d ≤ n → Fair P₂ b2 pDpe d) :
    ∫ ω₁, ∫ ω₂, ∫ z, signal1 (b1 ω₁) (b2 ω₂) z g1 pDpe lce bias smear correction n ∂(gaussianReal 0 1) ∂P₂ ∂P₁
      = x * n * ((1 + pDpe) * (1 + bias) / correction) := by
  simp only [fun ω₁ => s1_given P₂ (b1 ω₁) b2 (ok ω₁) g1 pDpe lce bias smear correction n hn f2]
  rw [integral_mul_const, f1]

/-- The mean of the corrected S2 when the number of photons is given. -/
theorem s2_given_photons (P₄ : Measure Ω₄) [IsProbabilityMeasure P₄] (b0 b1 : Binomial) (b2 : Ω₄ → Binomial)
    (ok0 : BinomialOk b0) (ok1 : BinomialOk b1) (q : Poisson) (okq : PoissonOk q)
    (survive g2 gasGain pDpe rel lce bias : ℝ) (smear : ℝ → ℝ) (n : ℤ) (hn : 0 ≤ n)
    (hp : 0 ≤ pDpe) (hs : 0 < survive) (hl : 0 < lce) (hg : 0 < gasGain * rel) (f2 : ∀ d, 0 ≤ d → Fair P₄ b2 pDpe d) :
    ∫ ω₄, ∫ z, signal2 b0 b1 (b2 ω₄) q z survive g2 gasGain pDpe rel lce bias smear lce n
      ∂(gaussianReal 0 1) ∂P₄ = (q (.fin (b1 (.fin (g2 / (gasGain * rel))) (b0 (.fin survive) n) * (gasGain * rel * lce / (1 + pDpe)))) : ℝ)
        * ((1 + pDpe) * (1 + bias) / lce / survive) := by
  have hd : (1 : ℝ) + pDpe ≠ 0 := by linarith
  have hr0 := ok0 (.fin survive) n hn
  have hr1 := ok1 (.fin (g2 / (gasGain * rel))) _ hr0.1
  set m : ℝ := b1 (.fin (g2 / (gasGain * rel))) (b0 (.fin survive) n) * (gasGain * rel * lce / (1 + pDpe)) with hm
  have hm0 : 0 ≤ m := by
    have : (0 : ℝ) ≤ (b1 (.fin (g2 / (gasGain * rel))) (b0 (.fin survive) n) : ℝ) := by exact_mod_cast hr1.1
    have : 0 < 1 + pDpe := by linarith
    positivity
  have hq := okq (.fin m) (by simpa using hm0)
  obtain ⟨hi, hmean⟩ := f2 _ hq
  simp only [signal2, cs2, electronDrifted, s2_eq g2 gasGain pDpe rel lce _ _ _ _ hp hg.ne', ← hm]
  have ha : ∀ (s pe : ℝ), ∫ z, area bias s z pe / lce / survive ∂(gaussianReal 0 1) = pe * (1 + bias) / (lce * survive) := by
    intro s pe
    rw [← area_mean bias s pe (lce * survive)]
    congr 1; funext z; rw [div_div]
  simp only [ha]
  push_cast
  have : ∀ ω₄, ((q (.fin m) : ℝ) + (b2 ω₄ (.fin pDpe) (q (.fin m)) : ℝ)) * (1 + bias) / (lce * survive)
      = (1 + bias) / (lce * survive) * (b2 ω₄ (.fin pDpe) (q (.fin m)) : ℝ) + (q (.fin m) : ℝ) * (1 + bias) / (lce * survive) :=
    fun ω₄ => by ring
  simp only [this]
  rw [integral_add (hi.const_mul _) (integrable_const _), integral_const_mul, hmean]
  simp
  field_simp
  ring

/-- The mean of the corrected S2 when the number of extracted electrons is given. -/
theorem s2_given_electrons (P₃ : Measure Ω₃) (P₄ : Measure Ω₄) [IsProbabilityMeasure P₄] (b0 b1 : Binomial) (b2 : Ω₄ → Binomial)
    (ok0 : BinomialOk b0) (ok1 : BinomialOk b1) (q : Ω₃ → Poisson) (okq : ∀ ω, PoissonOk (q ω))
    (survive g2 gasGain pDpe rel lce bias : ℝ) (smear : ℝ → ℝ) (n : ℤ) (hn : 0 ≤ n)
    (hp : 0 ≤ pDpe) (hs : 0 < survive) (hl : 0 < lce) (hg : 0 < gasGain * rel)
    (f3 : ∀ mu, 0 ≤ mu → FairPoisson P₃ q mu) (f2 : ∀ d, 0 ≤ d → Fair P₄ b2 pDpe d) :
    ∫ ω₃, ∫ ω₄, ∫ z, signal2 b0 b1 (b2 ω₄) (q ω₃) z survive g2 gasGain pDpe rel lce bias smear lce n
      ∂(gaussianReal 0 1) ∂P₄ ∂P₃ = (b1 (.fin (g2 / (gasGain * rel))) (b0 (.fin survive) n) : ℝ) * (gasGain * rel * (1 + bias) / survive) := by
  have hd : (1 : ℝ) + pDpe ≠ 0 := by linarith
  have hr0 := ok0 (.fin survive) n hn
  have hr1 := ok1 (.fin (g2 / (gasGain * rel))) _ hr0.1
  have hm0 : 0 ≤ (b1 (.fin (g2 / (gasGain * rel))) (b0 (.fin survive) n) : ℝ) * (gasGain * rel * lce / (1 + pDpe)) := by
    have : (0 : ℝ) ≤ (b1 (.fin (g2 / (gasGain * rel))) (b0 (.fin survive) n) : ℝ) := by exact_mod_cast hr1.1
    have : 0 < 1 + pDpe := by linarith
    positivity
  simp only [fun ω₃ => s2_given_photons P₄ b0 b1 b2 ok0 ok1 (q ω₃) (okq ω₃) survive g2 gasGain pDpe rel lce bias smear n hn hp hs hl hg f2]
  rw [integral_mul_const, (f3 _ hm0).2]
  field_simp

/-- The mean of the corrected S2 when a share `x` of the electrons is extracted on average. -/
theorem s2_mean (P₁ : Measure Ω₁) (P₂ : Measure Ω₂) (P₃ : Measure Ω₃) (P₄ : Measure Ω₄) [IsProbabilityMeasure P₁] [IsProbabilityMeasure P₂]
    [IsProbabilityMeasure P₃] [IsProbabilityMeasure P₄] (b0 : Ω₁ → Binomial) (b1 : Ω₂ → Binomial) (q : Ω₃ → Poisson) (b2 : Ω₄ → Binomial)
    (ok0 : ∀ ω, BinomialOk (b0 ω)) (ok1 : ∀ ω, BinomialOk (b1 ω)) (okq : ∀ ω, PoissonOk (q ω))
    (survive g2 gasGain pDpe rel lce bias x : ℝ) (smear : ℝ → ℝ) (n : ℤ) (hn : 0 ≤ n)
    (hp : 0 ≤ pDpe) (hs : 0 < survive) (hl : 0 < lce) (hg : 0 < gasGain * rel)
    (f0 : Fair P₁ b0 survive n) (f1 : ∀ d, 0 ≤ d → d ≤ n → ∫ ω, ((b1 ω (.fin (g2 / (gasGain * rel))) d : ℤ) : ℝ) ∂P₂ = x * d)
    (f3 : ∀ mu, 0 ≤ mu → FairPoisson P₃ q mu) (f2 : ∀ d, 0 ≤ d → Fair P₄ b2 pDpe d) :
    ∫ ω₁, ∫ ω₂, ∫ ω₃, ∫ ω₄, ∫ z, signal2 (b0 ω₁) (b1 ω₂) (b2 ω₄) (q ω₃) z survive g2 gasGain pDpe rel lce bias smear lce n
      ∂(gaussianReal 0 1) ∂P₄ ∂P₃ ∂P₂ ∂P₁ = x * (gasGain * rel) * n * (1 + bias) := by
  have e2 : ∀ ω₁, ∫ ω₂, ∫ ω₃, ∫ ω₄, ∫ z, signal2 (b0 ω₁) (b1 ω₂) (b2 ω₄) (q ω₃) z survive g2 gasGain pDpe rel lce bias smear lce n
      ∂(gaussianReal 0 1) ∂P₄ ∂P₃ ∂P₂ = (b0 ω₁ (.fin survive) n : ℝ) * (x * (gasGain * rel) * (1 + bias) / survive) := by
    intro ω₁
    have hr0 := ok0 ω₁ (.fin survive) n hn
    simp only [fun ω₂ => s2_given_electrons P₃ P₄ (b0 ω₁) (b1 ω₂) b2 (ok0 ω₁) (ok1 ω₂) q okq survive g2 gasGain pDpe rel lce bias smear n hn hp hs hl hg f3 f2]
    rw [integral_mul_const, f1 _ hr0.1 hr0.2]
    ring
  simp only [e2]
  rw [integral_mul_const, f0.2]
  field_simp


end Verif.Plugins
