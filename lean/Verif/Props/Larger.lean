/-
C141: better detector parameters never make the signals smaller.
-/
import Verif.Lemmas.Larger
import Verif.Props.Counts
import Verif.Lemmas.RoundedCounts

namespace Verif.Plugins
open Verif MeasureTheory

variable {Ω₀ Ω₁ Ω₂ Ω₃ Ω₄ Ω₀' Ω₁' Ω₂' Ω₃' Ω₄' : Type} [MeasurableSpace Ω₀] [MeasurableSpace Ω₁] [MeasurableSpace Ω₂] [MeasurableSpace Ω₃]
  [MeasurableSpace Ω₄] [MeasurableSpace Ω₀'] [MeasurableSpace Ω₁'] [MeasurableSpace Ω₂'] [MeasurableSpace Ω₃'] [MeasurableSpace Ω₄']

/-- **C141 (S1).** Whatever the law of the number of photons: with more photons, a larger `g1` or a larger light collection, at least as
many photons are detected and at least as many photoelectrons counted. -/
theorem C141_s1 (P₀ : Measure Ω₀) (P₁ : Measure Ω₁) (P₂ : Measure Ω₂) (P₀' : Measure Ω₀') (P₁' : Measure Ω₁') (P₂' : Measure Ω₂')
    [IsProbabilityMeasure P₀] [IsProbabilityMeasure P₁] [IsProbabilityMeasure P₂] [IsProbabilityMeasure P₀'] [IsProbabilityMeasure P₁']
    [IsProbabilityMeasure P₂'] (N : Ω₀ → ℤ) (N' : Ω₀' → ℤ) (hN : Count N) (hN' : Count N') (h : Larger P₀' N' P₀ N)
    (b1 : Ω₁ → Binomial) (b2 : Ω₂ → Binomial) (b1' : Ω₁' → Binomial) (b2' : Ω₂' → Binomial) (g1 g1' lce lce' pDpe : ℝ)
    (hp : 0 ≤ pDpe) (hp1 : pDpe ≤ 1) (hg : 0 ≤ g1) (hgg : g1 ≤ g1') (hl : 0 ≤ lce) (hll : lce ≤ lce') (h1 : g1' * lce' ≤ 1 + pDpe)
    (s1 : Binomially P₁ b1 (g1 * lce / (1 + pDpe))) (s1' : Binomially P₁' b1' (g1' * lce' / (1 + pDpe)))
    (s2 : Binomially P₂ b2 pDpe) (s2' : Binomially P₂' b2' pDpe) :
    Larger (P₀'.prod P₁') (fun ω => photonDetection (b1' ω.2) (.fin g1') (.fin pDpe) (.fin lce') (N' ω.1))
      (P₀.prod P₁) (fun ω => photonDetection (b1 ω.2) (.fin g1) (.fin pDpe) (.fin lce) (N ω.1)) ∧
    Larger ((P₀'.prod P₁').prod P₂') (fun ω => s1PE (b2' ω.2) (.fin pDpe) (photonDetection (b1' ω.1.2) (.fin g1') (.fin pDpe) (.fin lce') (N' ω.1.1)))
      ((P₀.prod P₁).prod P₂) (fun ω => s1PE (b2 ω.2) (.fin pDpe) (photonDetection (b1 ω.1.2) (.fin g1) (.fin pDpe) (.fin lce) (N ω.1.1))) := by
  have a0 : 0 ≤ g1 * lce := mul_nonneg hg hl
  have aa : g1 * lce ≤ g1' * lce' := mul_le_mul hgg hll hl (hg.trans hgg)
  have q0 : 0 ≤ g1 * lce / (1 + pDpe) := by positivity
  have qq : g1 * lce / (1 + pDpe) ≤ g1' * lce' / (1 + pDpe) := div_le_div_of_nonneg_right aa (by linarith)
  have q1 : g1' * lce' / (1 + pDpe) ≤ 1 := (div_le_one (by linarith)).2 h1
  simp only [fun b n => detection_eq g1 pDpe lce b n hp a0 (aa.trans h1), fun b n => detection_eq g1' pDpe lce' b n hp (a0.trans aa) h1]
  have hdet : Larger (P₀'.prod P₁') (fun ω => b1' ω.2 (.fin (g1' * lce' / (1 + pDpe))) (N' ω.1))
      (P₀.prod P₁) (fun ω => b1 ω.2 (.fin (g1 * lce / (1 + pDpe))) (N ω.1)) :=
    h.step hN hN' (fun m hm => (s1.count m hm).measurable) (fun m hm => (s1'.count m hm).measurable)
      (fun m hm => s1.larger q0 qq q1 s1' m hm) (fun m hm => s1'.more (q0.trans qq) q1 m hm)
  refine ⟨hdet, ?_⟩
  unfold s1PE
  refine hdet.step (b := fun ω m => b2 ω (.fin pDpe) m + m) (b' := fun ω m => b2' ω (.fin pDpe) m + m) (drawn_count hN s1.count)
    (drawn_count hN' s1'.count) (fun m hm => (s2.count m hm).measurable.add_const m) (fun m hm => (s2'.count m hm).measurable.add_const m)
    (fun m hm k => ?_) (fun m hm k => ?_)
  · have := s2.larger hp le_rfl hp1 s2' m hm (k - m)
    simpa only [sub_le_iff_le_add] using this
  · have a := s2'.more hp hp1 m hm (k - m)
    simp only [sub_le_iff_le_add] at a
    refine a.trans (measure_mono fun ω hω => ?_)
    simp only [Set.mem_setOf_eq] at hω ⊢
    omega

/-- **C141 (S2).** Whatever the law of the number of electrons: with more electrons, a larger survival probability, a larger `g2` or a
larger light collection, at least as many electrons are extracted, photons detected, and photoelectrons counted. -/
theorem C141_s2 (P₀ : Measure Ω₀) (P₁ : Measure Ω₁) (P₂ : Measure Ω₂) (P₃ : Measure Ω₃) (P₄ : Measure Ω₄) (P₀' : Measure Ω₀') (P₁' : Measure Ω₁')
    (P₂' : Measure Ω₂') (P₃' : Measure Ω₃') (P₄' : Measure Ω₄') [IsProbabilityMeasure P₀] [IsProbabilityMeasure P₁] [IsProbabilityMeasure P₂]
    [IsProbabilityMeasure P₃] [IsProbabilityMeasure P₄] [IsProbabilityMeasure P₀'] [IsProbabilityMeasure P₁'] [IsProbabilityMeasure P₂']
    [IsProbabilityMeasure P₃'] [IsProbabilityMeasure P₄'] (N : Ω₀ → ℤ) (N' : Ω₀' → ℤ) (hN : Count N) (hN' : Count N') (h : Larger P₀' N' P₀ N)
    (b0 : Ω₁ → Binomial) (b1 : Ω₂ → Binomial) (q : Ω₃ → Poisson) (b2 : Ω₄ → Binomial) (b0' : Ω₁' → Binomial) (b1' : Ω₂' → Binomial)
    (q' : Ω₃' → Poisson) (b2' : Ω₄' → Binomial) (survive survive' g2 g2' gasGain rel lce lce' pDpe : ℝ)
    (hp : 0 ≤ pDpe) (hp1 : pDpe ≤ 1) (hs : 0 ≤ survive) (hss : survive ≤ survive') (hs1 : survive' ≤ 1) (hg : 0 ≤ g2) (hgg : g2 ≤ g2')
    (hgr : 0 < gasGain * rel) (h1 : g2' ≤ gasGain * rel) (hl : 0 ≤ lce) (hll : lce ≤ lce')
    (s0 : Binomially P₁ b0 survive) (s0' : Binomially P₁' b0' survive') (s1 : Binomially P₂ b1 (g2 / (gasGain * rel)))
    (s1' : Binomially P₂' b1' (g2' / (gasGain * rel))) (s3 : PoissonSampler P₃ q) (s3' : PoissonSampler P₃' q')
    (s2 : Binomially P₄ b2 pDpe) (s2' : Binomially P₄' b2' pDpe) :
    let S : (((Ω₀ × Ω₁) × Ω₂) × Ω₃) × Ω₄ → ℤ × ℤ × ℤ := fun ω => s2PE (b1 ω.1.1.2) (b2 ω.2) (q ω.1.2) (.fin g2) (.fin gasGain) (.fin pDpe) (.fin rel)
      (.fin lce) (electronDrifted (b0 ω.1.1.1.2) (.fin survive) (N ω.1.1.1.1))
    let S' : (((Ω₀' × Ω₁') × Ω₂') × Ω₃') × Ω₄' → ℤ × ℤ × ℤ := fun ω => s2PE (b1' ω.1.1.2) (b2' ω.2) (q' ω.1.2) (.fin g2') (.fin gasGain) (.fin pDpe)
      (.fin rel) (.fin lce') (electronDrifted (b0' ω.1.1.1.2) (.fin survive') (N' ω.1.1.1.1))
    let P := (((P₀.prod P₁).prod P₂).prod P₃).prod P₄
    let P' := (((P₀'.prod P₁').prod P₂').prod P₃').prod P₄'
    Larger P' (fun ω => (S' ω).1) P (fun ω => (S ω).1) ∧ Larger P' (fun ω => (S' ω).2.1) P (fun ω => (S ω).2.1) ∧
      Larger P' (fun ω => (S' ω).2.2) P (fun ω => (S ω).2.2) := by
  intro S S' P P'
  have hd : (1 : ℝ) + pDpe ≠ 0 := by linarith
  have hS : ∀ ω, S ω = (b1 ω.1.1.2 (.fin (g2 / (gasGain * rel))) (b0 ω.1.1.1.2 (.fin survive) (N ω.1.1.1.1)),
      q ω.1.2 (.fin (b1 ω.1.1.2 (.fin (g2 / (gasGain * rel))) (b0 ω.1.1.1.2 (.fin survive) (N ω.1.1.1.1)) * (gasGain * rel * lce / (1 + pDpe)))),
      q ω.1.2 (.fin (b1 ω.1.1.2 (.fin (g2 / (gasGain * rel))) (b0 ω.1.1.1.2 (.fin survive) (N ω.1.1.1.1)) * (gasGain * rel * lce / (1 + pDpe)))) +
      b2 ω.2 (.fin pDpe) (q ω.1.2 (.fin (b1 ω.1.1.2 (.fin (g2 / (gasGain * rel))) (b0 ω.1.1.1.2 (.fin survive) (N ω.1.1.1.1)) *
        (gasGain * rel * lce / (1 + pDpe)))))) := by
    intro ω
    simp only [S, s2PE, electronDrifted, XF.fin_mul_fin, XF.fin_add_fin, XF.fin_div_fin_of_ne _ hgr.ne', XF.fin_div_fin_of_ne _ hd]
  have hS' : ∀ ω, S' ω = (b1' ω.1.1.2 (.fin (g2' / (gasGain * rel))) (b0' ω.1.1.1.2 (.fin survive') (N' ω.1.1.1.1)),
      q' ω.1.2 (.fin (b1' ω.1.1.2 (.fin (g2' / (gasGain * rel))) (b0' ω.1.1.1.2 (.fin survive') (N' ω.1.1.1.1)) * (gasGain * rel * lce' / (1 + pDpe)))),
      q' ω.1.2 (.fin (b1' ω.1.1.2 (.fin (g2' / (gasGain * rel))) (b0' ω.1.1.1.2 (.fin survive') (N' ω.1.1.1.1)) * (gasGain * rel * lce' / (1 + pDpe)))) +
      b2' ω.2 (.fin pDpe) (q' ω.1.2 (.fin (b1' ω.1.1.2 (.fin (g2' / (gasGain * rel))) (b0' ω.1.1.1.2 (.fin survive') (N' ω.1.1.1.1)) *
        (gasGain * rel * lce' / (1 + pDpe)))))) := by
    intro ω
    simp only [S', s2PE, electronDrifted, XF.fin_mul_fin, XF.fin_add_fin, XF.fin_div_fin_of_ne _ hgr.ne', XF.fin_div_fin_of_ne _ hd]
  have c0 : 0 ≤ gasGain * rel * lce / (1 + pDpe) := by positivity
  have cc : gasGain * rel * lce / (1 + pDpe) ≤ gasGain * rel * lce' / (1 + pDpe) :=
    div_le_div_of_nonneg_right (mul_le_mul_of_nonneg_left hll hgr.le) (by linarith)
  have e0 : 0 ≤ g2 / (gasGain * rel) := div_nonneg hg hgr.le
  have ee : g2 / (gasGain * rel) ≤ g2' / (gasGain * rel) := div_le_div_of_nonneg_right hgg hgr.le
  have e1 : g2' / (gasGain * rel) ≤ 1 := (div_le_one hgr).2 h1
  have k0 := drawn_count hN s0.count
  have k0' := drawn_count hN' s0'.count
  have k1 := drawn_count k0 s1.count
  have k1' := drawn_count k0' s1'.count
  have pc : ∀ {Ω : Type} [MeasurableSpace Ω] (R : Measure Ω) (r : Ω → Poisson), PoissonSampler R r → ∀ c, 0 ≤ c → ∀ m : ℤ, 0 ≤ m →
      PoissonCount R (fun ω => r ω (.fin (m * c))) (m * c) := fun R r hr c hc m hm => hr _ (mul_nonneg (by exact_mod_cast hm) hc)
  have cnt : ∀ {Ω : Type} [MeasurableSpace Ω] (R : Measure Ω) (r : Ω → Poisson), PoissonSampler R r → ∀ c, 0 ≤ c → ∀ m : ℤ, 0 ≤ m →
      Count (fun ω => r ω (.fin (m * c))) := fun R r hr c hc m hm => ⟨(pc R r hr c hc m hm).measurable, (pc R r hr c hc m hm).nonneg⟩
  have l0 := h.step hN hN' (fun m hm => (s0.count m hm).measurable) (fun m hm => (s0'.count m hm).measurable)
    (fun m hm => s0.larger hs hss hs1 s0' m hm) (fun m hm => s0'.more (hs.trans hss) hs1 m hm)
  have l1 := l0.step k0 k0' (fun m hm => (s1.count m hm).measurable) (fun m hm => (s1'.count m hm).measurable)
    (fun m hm => s1.larger e0 ee e1 s1' m hm) (fun m hm => s1'.more (e0.trans ee) e1 m hm)
  have l2 := l1.step (b := fun ω m => q ω (.fin (m * (gasGain * rel * lce / (1 + pDpe))))) (b' := fun ω m => q' ω (.fin (m * (gasGain * rel * lce' / (1 + pDpe)))))
    k1 k1' (fun m hm => (cnt P₃ q s3 _ c0 m hm).measurable) (fun m hm => (cnt P₃' q' s3' _ (c0.trans cc) m hm).measurable)
    (fun m hm => (pc P₃ q s3 _ c0 m hm).larger (mul_nonneg (by exact_mod_cast hm) c0) (mul_le_mul_of_nonneg_left cc (by exact_mod_cast hm))
      (pc P₃' q' s3' _ (c0.trans cc) m hm))
    (fun m hm => (pc P₃' q' s3' _ (c0.trans cc) m hm).larger (mul_nonneg (by exact_mod_cast hm) (c0.trans cc))
      (mul_le_mul_of_nonneg_right (by push_cast; linarith) (c0.trans cc)) (pc P₃' q' s3' _ (c0.trans cc) (m + 1) (by omega)))
  have k2 := drawn_count (b := fun ω m => q ω (.fin (m * (gasGain * rel * lce / (1 + pDpe))))) k1 (cnt P₃ q s3 _ c0)
  have k2' := drawn_count (b := fun ω m => q' ω (.fin (m * (gasGain * rel * lce' / (1 + pDpe))))) k1' (cnt P₃' q' s3' _ (c0.trans cc))
  have l3 := l2.step (b := fun ω m => m + b2 ω (.fin pDpe) m) (b' := fun ω m => m + b2' ω (.fin pDpe) m) k2 k2'
    (fun m hm => (s2.count m hm).measurable.const_add m) (fun m hm => (s2'.count m hm).measurable.const_add m)
    (fun m hm k => by
      have := s2.larger hp le_rfl hp1 s2' m hm (k - m)
      simpa only [sub_le_iff_le_add'] using this)
    (fun m hm k => by
      have a := s2'.more hp hp1 m hm (k - m)
      simp only [sub_le_iff_le_add'] at a
      refine a.trans (measure_mono fun ω hω => ?_)
      simp only [Set.mem_setOf_eq] at hω ⊢
      omega)
  simp only [hS, hS']
  exact ⟨(l1.lift P₃ P₃').lift P₄ P₄', l2.lift P₄ P₄', l3⟩

/-- **C141 (recombination).** With more quanta and less recombination an electronic recoil gives at least as many electrons; with more
quanta and more recombination at least as many photons. -/
theorem C141_recombination (P₁ : Measure Ω₁) (P₂ : Measure Ω₂) (P₁' : Measure Ω₁') (P₂' : Measure Ω₂') [IsProbabilityMeasure P₁] [IsProbabilityMeasure P₂]
    [IsProbabilityMeasure P₁'] [IsProbabilityMeasure P₂'] (b1 : Ω₁ → Binomial) (b2 : Ω₂ → Binomial) (b1' : Ω₁' → Binomial) (b2' : Ω₂' → Binomial)
    (ratio r r' : ℝ) (n n' : Nat) (hn : n ≤ n') (hr : 0 ≤ ratio) (r0 : 0 ≤ r) (r1 : r ≤ 1) (r0' : 0 ≤ r') (r1' : r' ≤ 1)
    (s1 : Binomially P₁ b1 (1 / (1 + ratio))) (s2 : Binomially P₂ b2 (1 - r)) (s1' : Binomially P₁' b1' (1 / (1 + ratio)))
    (s2' : Binomially P₂' b2' (1 - r')) :
    (r' ≤ r → Larger (P₁'.prod P₂') (fun ω => (splitER (b1' ω.1) (b2' ω.2) ratio r' n').2)
      (P₁.prod P₂) (fun ω => (splitER (b1 ω.1) (b2 ω.2) ratio r n).2)) ∧
    (r ≤ r' → Larger (P₁'.prod P₂') (fun ω => (splitER (b1' ω.1) (b2' ω.2) ratio r' n').1)
      (P₁.prod P₂) (fun ω => (splitER (b1 ω.1) (b2 ω.2) ratio r n).1)) := by
  have hd : 0 < 1 + ratio := by linarith
  refine ⟨fun h => ?_, fun h => ?_⟩
  · exact (C103_electrons P₁ P₂ b1 b2 ratio r n hr r0 r1 (s1 n) (s2 n)).larger_of_le hn (div_nonneg (by linarith) hd.le)
      (div_le_div_of_nonneg_right (by linarith) hd.le) ((div_le_one hd).2 (by linarith))
      (C103_electrons P₁' P₂' b1' b2' ratio r' n' hr r0' r1' (s1' n') (s2' n'))
  · exact (C103_photons P₁ P₂ b1 b2 ratio r n hr r0 r1 (s1 n) (s2 n)).larger_of_le hn (div_nonneg (by linarith) hd.le)
      (div_le_div_of_nonneg_right (by linarith) hd.le) ((div_le_one hd).2 (by linarith))
      (C103_photons P₁' P₂' b1' b2' ratio r' n' hr r0' r1' (s1' n') (s2' n'))

/-- **C141 (seen or not).** The probability that an electronic recoil is seen at all, that is that at least one photon is detected, rises strictly
with `g1`. -/
theorem C141_seen (P₁ : Measure Ω₁) (P₂ : Measure Ω₂) (P₃ : Measure Ω₃) (P₃' : Measure Ω₃') [IsProbabilityMeasure P₁] [IsProbabilityMeasure P₂]
    [IsProbabilityMeasure P₃] [IsProbabilityMeasure P₃'] (b1 : Ω₁ → Binomial) (b2 : Ω₂ → Binomial) (b3 : Ω₃ → Binomial) (b3' : Ω₃' → Binomial)
    (ratio r g1 g1' pDpe lce : ℝ) (n : Nat) (hn : 0 < n) (hr : 0 < ratio) (r0 : 0 ≤ r) (r1 : r ≤ 1) (hp : 0 ≤ pDpe) (hl : 0 < lce) (hg : 0 ≤ g1)
    (hgg : g1 < g1') (h1 : g1' * lce ≤ 1 + pDpe) (s1 : Binomially P₁ b1 (1 / (1 + ratio))) (s2 : Binomially P₂ b2 (1 - r))
    (s3 : Binomially P₃ b3 (g1 * lce / (1 + pDpe))) (s3' : Binomially P₃' b3' (g1' * lce / (1 + pDpe))) :
    ((P₁.prod P₂).prod P₃) {ω | 1 ≤ photonDetection (b3 ω.2) (.fin g1) (.fin pDpe) (.fin lce) (splitER (b1 ω.1.1) (b2 ω.1.2) ratio r n).1} <
      ((P₁.prod P₂).prod P₃') {ω | 1 ≤ photonDetection (b3' ω.2) (.fin g1') (.fin pDpe) (.fin lce) (splitER (b1 ω.1.1) (b2 ω.1.2) ratio r n).1} := by
  have a : g1 * lce < g1' * lce := mul_lt_mul_of_pos_right hgg hl
  have a0 : 0 ≤ g1 * lce := mul_nonneg hg hl.le
  have hd : 0 < 1 + ratio := by linarith
  have hdp : 0 < 1 + pDpe := by linarith
  have t0 : 0 < (ratio + r) / (1 + ratio) := div_pos (by linarith) hd
  have t1 : (ratio + r) / (1 + ratio) ≤ 1 := (div_le_one hd).2 (by linarith)
  have q0 : 0 ≤ g1 * lce / (1 + pDpe) := div_nonneg a0 hdp.le
  have qq : g1 * lce / (1 + pDpe) < g1' * lce / (1 + pDpe) := div_lt_div_of_pos_right a hdp
  have q1 : g1' * lce / (1 + pDpe) ≤ 1 := (div_le_one hdp).2 h1
  have d := C103_detected P₁ P₂ P₃ b1 b2 b3 ratio r g1 pDpe lce n hr.le r0 r1 hp a0 (a.le.trans h1) (s1 n) (s2 n) (s3 n)
  have d' := C103_detected P₁ P₂ P₃' b1 b2 b3' ratio r g1' pDpe lce n hr.le r0 r1 hp (a0.trans a.le) h1 (s1 n) (s2 n) (s3' n)
  rw [d.some (mul_nonneg t0.le q0) (mul_le_one₀ t1 q0 (qq.le.trans q1)), d'.some (mul_nonneg t0.le (q0.trans qq.le)) (mul_le_one₀ t1 (q0.trans qq.le) q1)]
  have lt : (ratio + r) / (1 + ratio) * (g1 * lce / (1 + pDpe)) < (ratio + r) / (1 + ratio) * (g1' * lce / (1 + pDpe)) := mul_lt_mul_of_pos_left qq t0
  have le1 : (ratio + r) / (1 + ratio) * (g1' * lce / (1 + pDpe)) ≤ 1 := mul_le_one₀ t1 (q0.trans qq.le) q1
  have pw : (1 - (ratio + r) / (1 + ratio) * (g1' * lce / (1 + pDpe))) ^ n < (1 - (ratio + r) / (1 + ratio) * (g1 * lce / (1 + pDpe))) ^ n :=
    pow_lt_pow_left₀ (by linarith) (by linarith) hn.ne'
  have p1 : (1 - (ratio + r) / (1 + ratio) * (g1 * lce / (1 + pDpe))) ^ n ≤ 1 := by
    refine pow_le_one₀ (by linarith) ?_
    have := mul_nonneg t0.le q0
    linarith
  exact (ENNReal.ofReal_lt_ofReal_iff_of_nonneg (by linarith)).2 (by linarith)

/-- **C141 (accepted).** If the acceptance grows with the signal, the larger signal is accepted at least as often. -/
theorem C141_accepted (P : Measure Ω₀) (Q : Measure Ω₀') [IsProbabilityMeasure P] [IsProbabilityMeasure Q] (X : Ω₀ → ℤ) (Y : Ω₀' → ℤ)
    (mX : Measurable X) (mY : Measurable Y) (h : Larger Q Y P X) (acceptance : ℤ → ℝ) (h0 : ∀ m, 0 ≤ acceptance m) (h1 : ∀ m, acceptance m ≤ 1)
    (hm : Monotone acceptance) : ∫ ω, acceptance (X ω) ∂P ≤ ∫ ω, acceptance (Y ω) ∂Q := by
  rw [integral_eq_lintegral_of_nonneg_ae (Filter.Eventually.of_forall fun ω => h0 (X ω)) ((measurable_of_countable acceptance).comp mX).aestronglyMeasurable,
    integral_eq_lintegral_of_nonneg_ae (Filter.Eventually.of_forall fun ω => h0 (Y ω)) ((measurable_of_countable acceptance).comp mY).aestronglyMeasurable]
  refine ENNReal.toReal_mono (ne_of_lt (lt_of_le_of_lt (lintegral_mono fun ω => ENNReal.ofReal_le_ofReal (h1 (Y ω))) ?_))
    (h.lintegral mX mY acceptance h0 hm)
  simp

/-- **C141 (drift).** Electrons survive the drift more often with a longer lifetime, a larger shift of the lifetime, a faster drift, and
nearer to the surface. -/
theorem C141_drift (velocity velocity' sigma sigma' elife elife' z z' : ℝ) (hv : 0 < velocity) (hvv : velocity ≤ velocity') (hs : -1 < sigma)
    (hss : sigma ≤ sigma') (he : 0 < elife) (hee : elife ≤ elife') (hz : |z'| ≤ |z|) :
    0 < driftLoss velocity sigma elife z ∧ driftLoss velocity sigma elife z ≤ driftLoss velocity' sigma' elife' z' ∧
      driftLoss velocity' sigma' elife' z' ≤ 1 := by
  have h1 : 0 < elife * (1 + sigma) := mul_pos he (by linarith)
  have h2 : elife * (1 + sigma) ≤ elife' * (1 + sigma') := mul_le_mul hee (by linarith) (by linarith) (by linarith)
  have h3 : 0 ≤ |z'| / velocity' / (elife' * (1 + sigma')) := div_nonneg (div_nonneg (abs_nonneg _) (by linarith)) (by linarith)
  have h4 : |z'| / velocity' / (elife' * (1 + sigma')) ≤ |z| / velocity / (elife * (1 + sigma)) :=
    div_le_div₀ (div_nonneg (abs_nonneg _) hv.le) (div_le_div₀ (abs_nonneg _) hz hv hvv) h1 h2
  have e : ∀ v s l x : ℝ, -|x| / v / (l * (1 + s)) = -(|x| / v / (l * (1 + s))) := fun v s l x => by rw [neg_div, neg_div]
  unfold driftLoss
  rw [e, e]
  exact ⟨Real.exp_pos _, Real.exp_le_exp.2 (by linarith), Real.exp_le_one_iff.2 (by linarith)⟩

/-- **C141 (quanta).** For the same random number, a larger energy gives at least as many quanta. -/
theorem C141_quanta (r : Rounding) (big : Nat) (z w fano energy energy' : ℝ) (hw : 0 < w) (hf : 0 ≤ fano) (he : 0 ≤ energy) (hee : energy ≤ energy') :
    0 ≤ quanta r big z (.fin w) (.fin fano) (.fin energy) ∧
      quanta r big z (.fin w) (.fin fano) (.fin energy) ≤ quanta r big z (.fin w) (.fin fano) (.fin energy') := by
  have form : ∀ e, 0 ≤ e → quanta r big z (.fin w) (.fin fano) (.fin e) = r.fn (max (z * √(e / w * fano) + e / w) 0) := by
    intro e h
    have : ¬ e / w * fano < 0 := not_lt.2 (mul_nonneg (div_nonneg h hw.le) hf)
    simp only [quanta, XF.fin_div_fin_of_ne _ hw.ne', XF.fin_mul_fin, xsqrt, if_neg this, truncLow, normal, XF.fin_add_fin, jmax_fin, roundInt]
  rw [form _ he, form _ (he.trans hee)]
  refine ⟨?_, r.mono ?_⟩
  · have := r.mono (le_max_right (z * √(energy / w * fano) + energy / w) 0)
    have h0 := r.int 0
    simp only [Int.cast_zero] at h0
    rwa [h0] at this
  · have m0 : 0 ≤ energy / w := div_nonneg he hw.le
    have mm : energy / w ≤ energy' / w := div_le_div_of_nonneg_right hee hw.le
    set a := energy / w
    set b := energy' / w
    rw [Real.sqrt_mul m0, Real.sqrt_mul (m0.trans mm)]
    have sa := Real.sq_sqrt m0
    have sb := Real.sq_sqrt (m0.trans mm)
    have s0 := Real.sqrt_nonneg a
    have ss := Real.sqrt_le_sqrt mm
    refine max_le ?_ (le_max_right _ _)
    by_cases hc : 0 ≤ z * √fano + √a
    · refine le_trans ?_ (le_max_left _ _)
      have e1 : z * (√a * √fano) + a = √a * (z * √fano + √a) := by nlinarith
      have e2 : z * (√b * √fano) + b = √b * (z * √fano + √b) := by nlinarith
      rw [e1, e2]
      exact mul_le_mul ss (by linarith) hc (s0.trans ss)
    · refine le_trans ?_ (le_max_right _ _)
      have e1 : z * (√a * √fano) + a = √a * (z * √fano + √a) := by nlinarith
      rw [e1]
      exact mul_nonpos_of_nonneg_of_nonpos s0 (by linarith)

/-! ### Concrete cases -/

/-- The ideal sampler is one for every count. -/
theorem ideal (p : ℝ) (h0 : 0 ≤ p) (h1 : p ≤ 1) : Binomially manyTrials trialsBinomial p := fun N => trials_sampler p h0 h1 N

instance : IsProbabilityMeasure manyTrials := by unfold manyTrials; infer_instance

/-- Non-vacuity: 100 photons, `g1` of 0.1 and 0.15. -/
example : Larger ((Measure.dirac ()).prod manyTrials) (fun ω => photonDetection (trialsBinomial ω.2) (.fin 0.15) (.fin 0.2) (.fin 1) 100)
    ((Measure.dirac ()).prod manyTrials) (fun ω => photonDetection (trialsBinomial ω.2) (.fin 0.1) (.fin 0.2) (.fin 1) 100) :=
  (C141_s1 (Measure.dirac ()) manyTrials manyTrials (Measure.dirac ()) manyTrials manyTrials (fun _ => 100) (fun _ => 100)
    ⟨measurable_const, fun _ => by norm_num⟩ ⟨measurable_const, fun _ => by norm_num⟩ (larger_refl _ _) trialsBinomial trialsBinomial
    trialsBinomial trialsBinomial 0.1 0.15 1 1 0.2 (by norm_num) (by norm_num) (by norm_num) (by norm_num) (by norm_num) le_rfl (by norm_num)
    (ideal _ (by norm_num) (by norm_num)) (ideal _ (by norm_num) (by norm_num)) (ideal _ (by norm_num) (by norm_num))
    (ideal _ (by norm_num) (by norm_num))).1

/-- Non-vacuity: 60 electrons, of which 70 or 80 percent survive. -/
example : Larger (((((Measure.dirac ()).prod manyTrials).prod manyTrials).prod Randgen.unif).prod manyTrials)
    (fun ω => (s2PE (trialsBinomial ω.1.1.2) (trialsBinomial ω.2) (quantilePoisson ω.1.2) (.fin 16) (.fin 31) (.fin 0.2) (.fin 1) (.fin 1)
      (electronDrifted (trialsBinomial ω.1.1.1.2) (.fin 0.8) 60)).2.2)
    (((((Measure.dirac ()).prod manyTrials).prod manyTrials).prod Randgen.unif).prod manyTrials)
    (fun ω => (s2PE (trialsBinomial ω.1.1.2) (trialsBinomial ω.2) (quantilePoisson ω.1.2) (.fin 16) (.fin 31) (.fin 0.2) (.fin 1) (.fin 1)
      (electronDrifted (trialsBinomial ω.1.1.1.2) (.fin 0.7) 60)).2.2) :=
  (C141_s2 (Measure.dirac ()) manyTrials manyTrials Randgen.unif manyTrials (Measure.dirac ()) manyTrials manyTrials Randgen.unif manyTrials
    (fun _ => 60) (fun _ => 60) ⟨measurable_const, fun _ => by norm_num⟩ ⟨measurable_const, fun _ => by norm_num⟩ (larger_refl _ _)
    trialsBinomial trialsBinomial quantilePoisson trialsBinomial trialsBinomial trialsBinomial quantilePoisson trialsBinomial
    0.7 0.8 16 16 31 1 1 1 0.2 (by norm_num) (by norm_num) (by norm_num) (by norm_num) (by norm_num) (by norm_num) le_rfl (by norm_num) (by norm_num)
    (by norm_num) le_rfl (ideal _ (by norm_num) (by norm_num)) (ideal _ (by norm_num) (by norm_num)) (ideal _ (by norm_num) (by norm_num))
    (ideal _ (by norm_num) (by norm_num)) quantile_sampler quantile_sampler (ideal _ (by norm_num) (by norm_num)) (ideal _ (by norm_num) (by norm_num))).2.2

/-- Non-vacuity: the samplers of `C141_seen` and `C141_recombination` exist. -/
example : Binomially manyTrials trialsBinomial (1 / (1 + 0.2)) ∧ Binomially manyTrials trialsBinomial (1 - 0.4) :=
  ⟨ideal _ (by norm_num) (by norm_num), ideal _ (by norm_num) (by norm_num)⟩

end Verif.Plugins
