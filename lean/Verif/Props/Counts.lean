/-
Property theorems C103: the distributions of the counts along the chain of an electronic recoil.
-/
import Verif.Lemmas.Counts
import Verif.Props.Randgen

namespace Verif.Plugins
open Verif MeasureTheory ProbabilityTheory

variable {Ω₁ Ω₂ Ω₃ Ω₄ : Type} [MeasurableSpace Ω₁] [MeasurableSpace Ω₂] [MeasurableSpace Ω₃] [MeasurableSpace Ω₄]

/-- **C103 (electrons).** Out of `n` quanta, independently of each other, each becomes an electron with probability
`(1 - r) / (1 + ratio)`: the number of electrons is binomially distributed. -/
theorem C103_electrons (P₁ : Measure Ω₁) (P₂ : Measure Ω₂) [IsProbabilityMeasure P₁] [IsProbabilityMeasure P₂] (b1 : Ω₁ → Binomial)
    (b2 : Ω₂ → Binomial) (ratio r : ℝ) (n : Nat) (hr : 0 ≤ ratio) (r0 : 0 ≤ r) (r1 : r ≤ 1)
    (s1 : BinomialSampler P₁ b1 n (1 / (1 + ratio))) (s2 : BinomialSampler P₂ b2 n (1 - r)) :
    BinomialCount (P₁.prod P₂) (fun ω => (splitER (b1 ω.1) (b2 ω.2) ratio r n).2) n ((1 - r) / (1 + ratio)) := by
  have hd : (1 : ℝ) + ratio ≠ 0 := by positivity
  have h1 : 1 / (1 + ratio) ≤ 1 := by rw [div_le_one (by positivity)]; linarith
  have h := (s1 n le_rfl).thin (by positivity) h1 s2 (by linarith) (by linarith)
  have e : (fun ω : Ω₁ × Ω₂ => (splitER (b1 ω.1) (b2 ω.2) ratio r n).2)
      = fun ω => b2 ω.2 (.fin (1 - r)) (b1 ω.1 (.fin (1 / (1 + ratio))) n) := by
    funext ω
    unfold splitER recombinationER ionizationER
    simp only [XF.fin_add_fin, XF.fin_div_fin_of_ne _ hd]
    rfl
  rw [e]
  have e2 : (1 - r) / (1 + ratio) = 1 / (1 + ratio) * (1 - r) := by ring
  rw [e2]
  exact h

/-- **C103 (photons).** The photons are the other quanta, so their number is binomially distributed as well. -/
theorem C103_photons (P₁ : Measure Ω₁) (P₂ : Measure Ω₂) [IsProbabilityMeasure P₁] [IsProbabilityMeasure P₂] (b1 : Ω₁ → Binomial)
    (b2 : Ω₂ → Binomial) (ratio r : ℝ) (n : Nat) (hr : 0 ≤ ratio) (r0 : 0 ≤ r) (r1 : r ≤ 1)
    (s1 : BinomialSampler P₁ b1 n (1 / (1 + ratio))) (s2 : BinomialSampler P₂ b2 n (1 - r)) :
    BinomialCount (P₁.prod P₂) (fun ω => (splitER (b1 ω.1) (b2 ω.2) ratio r n).1) n ((ratio + r) / (1 + ratio)) := by
  have h := (C103_electrons P₁ P₂ b1 b2 ratio r n hr r0 r1 s1 s2).failures
  have hd : (1 : ℝ) + ratio ≠ 0 := by positivity
  have e : 1 - (1 - r) / (1 + ratio) = (ratio + r) / (1 + ratio) := by field_simp; ring
  rw [e] at h
  exact h

/-- **C103 (detected photons).** Each quantum gives a detected photon with the probability of becoming a photon times the probability of
detection, and the number of detected photons is binomially distributed. -/
theorem C103_detected (P₁ : Measure Ω₁) (P₂ : Measure Ω₂) (P₃ : Measure Ω₃) [IsProbabilityMeasure P₁] [IsProbabilityMeasure P₂]
    [IsProbabilityMeasure P₃] (b1 : Ω₁ → Binomial) (b2 : Ω₂ → Binomial) (b3 : Ω₃ → Binomial) (ratio r g1 pDpe lce : ℝ) (n : Nat)
    (hr : 0 ≤ ratio) (r0 : 0 ≤ r) (r1 : r ≤ 1) (hp : 0 ≤ pDpe) (h0 : 0 ≤ g1 * lce) (h1 : g1 * lce ≤ 1 + pDpe)
    (s1 : BinomialSampler P₁ b1 n (1 / (1 + ratio))) (s2 : BinomialSampler P₂ b2 n (1 - r))
    (s3 : BinomialSampler P₃ b3 n (g1 * lce / (1 + pDpe))) :
    BinomialCount ((P₁.prod P₂).prod P₃)
      (fun ω => photonDetection (b3 ω.2) (.fin g1) (.fin pDpe) (.fin lce) (splitER (b1 ω.1.1) (b2 ω.1.2) ratio r n).1) n
      ((ratio + r) / (1 + ratio) * (g1 * lce / (1 + pDpe))) := by
  simp only [detection_eq g1 pDpe lce _ _ hp h0 h1]
  exact (C103_photons P₁ P₂ b1 b2 ratio r n hr r0 r1 s1 s2).thin (by positivity) ((div_le_one (by positivity)).2 (by linarith)) s3
    (div_nonneg h0 (by linarith)) ((div_le_one (by linarith)).2 h1)

/-- **C103 (extracted electrons).** Each quantum gives an extracted electron with the probability of becoming an electron, times that of
surviving the drift, times that of being extracted. -/
theorem C103_extracted (P₁ : Measure Ω₁) (P₂ : Measure Ω₂) (P₃ : Measure Ω₃) (P₄ : Measure Ω₄) [IsProbabilityMeasure P₁]
    [IsProbabilityMeasure P₂] [IsProbabilityMeasure P₃] [IsProbabilityMeasure P₄] (b1 : Ω₁ → Binomial) (b2 : Ω₂ → Binomial)
    (b3 : Ω₃ → Binomial) (b4 : Ω₄ → Binomial) (b5 : Binomial) (q : Poisson) (ratio r survive g2 gasGain rel pDpe lce : ℝ) (n : Nat)
    (hr : 0 ≤ ratio) (r0 : 0 ≤ r) (r1 : r ≤ 1) (hs : 0 ≤ survive) (hs1 : survive ≤ 1) (h0 : 0 ≤ g2) (hg : 0 < gasGain * rel)
    (h1 : g2 ≤ gasGain * rel)
    (s1 : BinomialSampler P₁ b1 n (1 / (1 + ratio))) (s2 : BinomialSampler P₂ b2 n (1 - r))
    (s3 : BinomialSampler P₃ b3 n survive) (s4 : BinomialSampler P₄ b4 n (g2 / (gasGain * rel))) :
    BinomialCount (((P₁.prod P₂).prod P₃).prod P₄)
      (fun ω => (s2PE (b4 ω.2) b5 q (.fin g2) (.fin gasGain) (.fin pDpe) (.fin rel) (.fin lce)
        (electronDrifted (b3 ω.1.2) (.fin survive) (splitER (b1 ω.1.1.1) (b2 ω.1.1.2) ratio r n).2)).1) n
      ((1 - r) / (1 + ratio) * survive * (g2 / (gasGain * rel))) := by
  have hq : (1 - r) / (1 + ratio) ≤ 1 := (div_le_one (by positivity)).2 (by linarith)
  have hq0 : 0 ≤ (1 - r) / (1 + ratio) := div_nonneg (by linarith) (by positivity)
  have h3 := (C103_electrons P₁ P₂ b1 b2 ratio r n hr r0 r1 s1 s2).thin hq0 hq s3 hs hs1
  have h4 := h3.thin (mul_nonneg hq0 hs) (mul_le_one₀ hq hs hs1) s4 (div_nonneg h0 hg.le) ((div_le_one hg).2 h1)
  have e : ∀ (b : Binomial) (m : ℤ), (s2PE b b5 q (.fin g2) (.fin gasGain) (.fin pDpe) (.fin rel) (.fin lce) m).1
      = b (.fin (g2 / (gasGain * rel))) m := by
    intro b m
    unfold s2PE
    simp only [XF.fin_mul_fin, XF.fin_div_fin_of_ne _ hg.ne']
  simp only [e]
  exact h4

/-- **C103 (mean and fluctuation).** The mean numbers of electrons and photons are `n (1 - r) / (1 + ratio)` and
`n (ratio + r) / (1 + ratio)`; both fluctuate with the variance `n (1 - r) (ratio + r) / (1 + ratio)²`. -/
theorem C103_moments (P₁ : Measure Ω₁) (P₂ : Measure Ω₂) [IsProbabilityMeasure P₁] [IsProbabilityMeasure P₂] (b1 : Ω₁ → Binomial)
    (b2 : Ω₂ → Binomial) (ratio r : ℝ) (n : Nat) (hr : 0 ≤ ratio) (r0 : 0 ≤ r) (r1 : r ≤ 1)
    (s1 : BinomialSampler P₁ b1 n (1 / (1 + ratio))) (s2 : BinomialSampler P₂ b2 n (1 - r)) :
    let N : Ω₁ × Ω₂ → ℤ × ℤ := fun ω => splitER (b1 ω.1) (b2 ω.2) ratio r n
    ∫ ω, ((N ω).2 : ℝ) ∂(P₁.prod P₂) = n * (1 - r) / (1 + ratio) ∧ ∫ ω, ((N ω).1 : ℝ) ∂(P₁.prod P₂) = n * (ratio + r) / (1 + ratio) ∧
    ∫ ω, (((N ω).2 : ℝ) - n * (1 - r) / (1 + ratio)) ^ 2 ∂(P₁.prod P₂) = n * (1 - r) * (ratio + r) / (1 + ratio) ^ 2 ∧
    ∫ ω, (((N ω).1 : ℝ) - n * (ratio + r) / (1 + ratio)) ^ 2 ∂(P₁.prod P₂) = n * (1 - r) * (ratio + r) / (1 + ratio) ^ 2 := by
  intro N
  have hd : (1 : ℝ) + ratio ≠ 0 := by positivity
  have he := C103_electrons P₁ P₂ b1 b2 ratio r n hr r0 r1 s1 s2
  have hp := C103_photons P₁ P₂ b1 b2 ratio r n hr r0 r1 s1 s2
  have hq : (1 - r) / (1 + ratio) ≤ 1 := (div_le_one (by positivity)).2 (by linarith)
  have hq0 : 0 ≤ (1 - r) / (1 + ratio) := div_nonneg (by linarith) (by positivity)
  have hk : (ratio + r) / (1 + ratio) ≤ 1 := (div_le_one (by positivity)).2 (by linarith)
  have hk0 : 0 ≤ (ratio + r) / (1 + ratio) := by positivity
  refine ⟨?_, ?_, ?_, ?_⟩
  · rw [mul_div_assoc]; exact he.mean hq0 hq
  · rw [mul_div_assoc]; exact hp.mean hk0 hk
  · rw [mul_div_assoc]; refine (he.variance hq0 hq).trans ?_
    field_simp; ring
  · rw [mul_div_assoc]; refine (hp.variance hk0 hk).trans ?_
    field_simp; ring

/-- **C103 (S1 photoelectrons).** The photoelectrons of `d` detected photons have the mean `d (1 + p)`, the variance `d p (1 - p)`, and lie
between `d` and `2 d`; over the detection of `n` photons with probability `q` the variance is `n q ((1 + p)² (1 - q) + p (1 - p))`. -/
theorem C103_photoelectrons (P₁ : Measure Ω₁) (P₂ : Measure Ω₂) [IsProbabilityMeasure P₁] [IsProbabilityMeasure P₂] (X : Ω₁ → ℤ)
    (b2 : Ω₂ → Binomial) (p q : ℝ) (n : Nat) (p0 : 0 ≤ p) (p1 : p ≤ 1) (q0 : 0 ≤ q) (q1 : q ≤ 1) (hX : BinomialCount P₁ X n q)
    (s2 : BinomialSampler P₂ b2 n p) :
    (∀ ω₁ ω₂, X ω₁ ≤ s1PE (b2 ω₂) (.fin p) (X ω₁) ∧ s1PE (b2 ω₂) (.fin p) (X ω₁) ≤ 2 * X ω₁) ∧
    ∫ ω₁, ∫ ω₂, ((s1PE (b2 ω₂) (.fin p) (X ω₁) : ℤ) : ℝ) ∂P₂ ∂P₁ = n * q * (1 + p) ∧
    ∫ ω₁, ∫ ω₂, (((s1PE (b2 ω₂) (.fin p) (X ω₁) : ℤ) : ℝ) - n * q * (1 + p)) ^ 2 ∂P₂ ∂P₁ = n * q * ((1 + p) ^ 2 * (1 - q) + p * (1 - p)) := by
  have hd : ∀ ω₁, BinomialCount P₂ (fun ω => b2 ω (.fin p) (X ω₁)) (X ω₁).toNat p := by
    intro ω₁
    obtain ⟨h3, h4⟩ := hX.range ω₁
    have := s2 (X ω₁).toNat (by omega)
    simpa only [Int.toNat_of_nonneg h3] using this
  have hc : ∀ ω₁, (((X ω₁).toNat : ℕ) : ℝ) = (X ω₁ : ℝ) := by
    intro ω₁
    obtain ⟨h3, _⟩ := hX.range ω₁
    exact_mod_cast congrArg (fun k : ℤ => (k : ℝ)) (Int.toNat_of_nonneg h3)
  refine ⟨fun ω₁ ω₂ => ?_, ?_, ?_⟩
  · have h3 := (hd ω₁).range ω₂
    obtain ⟨h4, _⟩ := hX.range ω₁
    simp only [Int.toNat_of_nonneg h4] at h3
    unfold s1PE
    omega
  · have inner : ∀ ω₁, ∫ ω₂, ((s1PE (b2 ω₂) (.fin p) (X ω₁) : ℤ) : ℝ) ∂P₂ = (X ω₁ : ℝ) * (1 + p) := by
      intro ω₁
      unfold s1PE
      push_cast
      rw [integral_add ((hd ω₁).integrable (fun k => (k : ℝ))) (integrable_const _), (hd ω₁).mean p0 p1, hc]
      simp
      ring
    simp only [inner]
    rw [integral_mul_const, hX.mean q0 q1]
  · have inner : ∀ ω₁, ∫ ω₂, (((s1PE (b2 ω₂) (.fin p) (X ω₁) : ℤ) : ℝ) - n * q * (1 + p)) ^ 2 ∂P₂
        = (1 + p) ^ 2 * ((X ω₁ : ℝ) - n * q) ^ 2 + p * (1 - p) * (X ω₁ : ℝ) := by
      intro ω₁
      have e : (fun ω₂ => (((s1PE (b2 ω₂) (.fin p) (X ω₁) : ℤ) : ℝ) - n * q * (1 + p)) ^ 2)
          = fun ω₂ => ((((b2 ω₂ (.fin p) (X ω₁) : ℤ) : ℝ) - (X ω₁).toNat * p) ^ 2
            + 2 * ((1 + p) * ((X ω₁ : ℝ) - n * q)) * ((b2 ω₂ (.fin p) (X ω₁) : ℤ) : ℝ))
            + (((1 + p) * ((X ω₁ : ℝ) - n * q)) ^ 2 - 2 * ((1 + p) * ((X ω₁ : ℝ) - n * q)) * ((X ω₁ : ℝ) * p)) := by
        funext ω₂
        unfold s1PE
        push_cast
        rw [hc]
        ring
      have i1 := (hd ω₁).integrable (fun k => ((k : ℝ) - (X ω₁).toNat * p) ^ 2)
      have i2 := ((hd ω₁).integrable (fun k => (k : ℝ))).const_mul (2 * ((1 + p) * ((X ω₁ : ℝ) - n * q)))
      have i12 : Integrable (fun ω => (((b2 ω (.fin p) (X ω₁) : ℤ) : ℝ) - (X ω₁).toNat * p) ^ 2
          + 2 * ((1 + p) * ((X ω₁ : ℝ) - n * q)) * ((b2 ω (.fin p) (X ω₁) : ℤ) : ℝ)) P₂ := i1.add i2
      rw [e, integral_add i12 (integrable_const _), integral_add i1 i2, (hd ω₁).variance p0 p1, integral_const_mul,
        (hd ω₁).mean p0 p1, hc]
      simp
      ring
    simp only [inner]
    rw [integral_add ((hX.integrable (fun k => ((k : ℝ) - n * q) ^ 2)).const_mul _) ((hX.integrable (fun k => (k : ℝ))).const_mul _),
      integral_const_mul, integral_const_mul, hX.variance q0 q1, hX.mean q0 q1]
    ring

/-- The shipped hybrid sampler draws from the binomial distribution for counts within its threshold. -/
theorem C103_hybrid (rnd : ℝ → ℤ) (threshold : Nat) (p z : ℝ) (h0 : 0 ≤ p) (h1 : p ≤ 1) :
    BinomialSampler (Randgen.trialsLaw threshold) (fun u => hybridBinomial rnd threshold z (Randgen.padded u)) threshold p := by
  intro n hn
  refine ⟨?_, fun u => ?_, fun k => ?_⟩
  · simp only [hybridBinomial]
    rcases h0.eq_or_lt with h0' | h0'
    · have hz : ∀ u, Randgen.hybrid rnd threshold p n z u = 0 := by
        intro u
        rw [Randgen.hybrid_eq, if_pos h0'.symm.le, if_neg (by linarith : ¬ 1 ≤ p)]
        simp
      simp only [hz]
      exact measurable_const
    · rcases h1.eq_or_lt with h1' | h1'
      · have hz : ∀ u, Randgen.hybrid rnd threshold p n z u = n := by
          intro u
          rw [Randgen.hybrid_eq, if_pos h1'.symm.le]
          split
          · omega
          · rfl
        simp only [hz]
        exact measurable_const
      · have he : ∀ u, Randgen.hybrid rnd threshold p n z u = ∑ j ∈ Finset.range n, if u j < p then (1 : ℤ) else 0 := by
          intro u
          rw [Randgen.hybrid_small rnd threshold n p z _ hn h0' h1', Finset.card_filter]
          push_cast
          rfl
        simp only [he]
        refine Finset.measurable_sum _ fun j hj => ?_
        have hj' : j < threshold := lt_of_lt_of_le (Finset.mem_range.1 hj) hn
        exact Measurable.ite ((padded_preserving threshold j hj').measurable measurableSet_Iio) measurable_const measurable_const
  · have := hybridBinomial_ok rnd threshold z (Randgen.padded u) (.fin p) n (by positivity)
    exact this
  · exact Randgen.C46_distribution rnd threshold n k p z hn h0 h1

/-- **C103 (shipped sampler).** With the shipped hybrid sampler, for events within its threshold: the number of electrons out of `n` quanta
is binomially distributed. -/
theorem C103_electrons_shipped (rnd1 rnd2 : ℝ → ℤ) (threshold n : Nat) (z1 z2 ratio r : ℝ) (hn : n ≤ threshold) (hr : 0 ≤ ratio)
    (r0 : 0 ≤ r) (r1 : r ≤ 1) (k : Nat) :
    ((Randgen.trialsLaw threshold).prod (Randgen.trialsLaw threshold)) {u | (splitER (hybridBinomial rnd1 threshold z1 (Randgen.padded u.1))
      (hybridBinomial rnd2 threshold z2 (Randgen.padded u.2)) ratio r n).2 = k}
      = ENNReal.ofReal (n.choose k * ((1 - r) / (1 + ratio)) ^ k * (1 - (1 - r) / (1 + ratio)) ^ (n - k)) := by
  haveI : IsProbabilityMeasure (Randgen.trialsLaw threshold) := by
    change IsProbabilityMeasure (Measure.pi (fun _ : Fin threshold => Randgen.unif))
    infer_instance
  have h1 : 1 / (1 + ratio) ≤ 1 := by rw [div_le_one (by positivity)]; linarith
  have s1 := C103_hybrid rnd1 threshold (1 / (1 + ratio)) z1 (by positivity) h1
  have s2 := C103_hybrid rnd2 threshold (1 - r) z2 (by linarith) (by linarith)
  exact (C103_electrons (Randgen.trialsLaw threshold) (Randgen.trialsLaw threshold) _ _ ratio r n hr r0 r1
    (fun m hm => s1 m (hm.trans hn)) (fun m hm => s2 m (hm.trans hn))).law k

/-- A case: of 20 quanta, half of them ions, with half of the ions recombining, all become photons with probability (3/4)^20. -/
example (rnd : ℝ → ℤ) (z : ℝ) :
    ((Randgen.trialsLaw 50).prod (Randgen.trialsLaw 50)) {u | (splitER (hybridBinomial rnd 50 z (Randgen.padded u.1))
      (hybridBinomial rnd 50 z (Randgen.padded u.2)) 1 (1 / 2) (20 : ℕ)).2 = (0 : ℕ)} = ENNReal.ofReal ((3 / 4) ^ 20) := by
  rw [C103_electrons_shipped rnd rnd 50 20 z z 1 (1 / 2) (by norm_num) (by norm_num) (by norm_num) (by norm_num) 0]
  norm_num

/-- A case of the photoelectrons: 30 photons detected with probability 1/5, and double photoelectrons with probability 1/5. -/
example (rnd : ℝ → ℤ) (z : ℝ) :
    ∫ u, ∫ v, (((s1PE (hybridBinomial rnd 50 z (Randgen.padded v)) (.fin (1 / 5)) (hybridBinomial rnd 50 z (Randgen.padded u) (.fin (1 / 5))
      (30 : ℕ)) : ℤ) : ℝ) - (30 : ℕ) * (1 / 5) * (1 + 1 / 5)) ^ 2 ∂(Randgen.trialsLaw 50) ∂(Randgen.trialsLaw 50) = 984 / 125 := by
  haveI : IsProbabilityMeasure (Randgen.trialsLaw 50) := by
    change IsProbabilityMeasure (Measure.pi (fun _ : Fin 50 => Randgen.unif))
    infer_instance
  have s := C103_hybrid rnd 50 (1 / 5) z (by norm_num) (by norm_num)
  rw [(C103_photoelectrons (Randgen.trialsLaw 50) (Randgen.trialsLaw 50) _ _ (1 / 5) (1 / 5) 30 (by norm_num) (by norm_num) (by norm_num)
    (by norm_num) (s 30 (by norm_num)) (fun m hm => s m (by omega))).2.2]
  norm_num

end Verif.Plugins
