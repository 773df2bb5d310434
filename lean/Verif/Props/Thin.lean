/-
C117: weighting events by their efficiency, compared with accepting each with this probability.
-/
import Verif.Lemmas.Thin

namespace Verif.Llh
open Verif Comp MeasureTheory ProbabilityTheory

/-- **C117 (accepted events).** Each simulated event is accepted with the probability that its efficiency is, or rejected.  The
histogram of the accepted events has in every bin the histogram weighted by the efficiencies as its mean, and its mean square
distance from any number `m` is that of the weighted histogram plus a sum over the events of the bin, which vanishes only if
every efficiency there is zero or one, efficiencies being probabilities. -/
theorem C117_accepted (cfg : HistCfg ℝ) (ha : Ascending cfg.bins) (hn : cfg.normType = "on_sim") (he : cfg.energy = .simulated)
    (heps : cfg.addEps = false) (rate : ℝ) (n : Nat) (h1 : 1 ≤ n) (X : Nat → Fin cfg.bins.dims → ℝ) (W : Nat → ℝ)
    {Ω : Type} [MeasurableSpace Ω] (P : Measure Ω) [IsProbabilityMeasure P] (A : Nat → Ω → ℝ) (hA : Decisions P n W A) (i j : Nat)
    (hb : IsBin cfg.bins i j) :
    ∃ (w : ℝ) (v : Ω → ℝ),
      (∃ h, simulateHist cfg false ((sampleOf cfg rate n X W).cols ++ [(sampleOf cfg rate n X W).eff]) rate n = .ok h ∧ at? h i j = some w) ∧
      (∀ ω, ∃ h, simulateHist cfg false ((sampleOf cfg rate n X (fun k => A k ω)).cols ++ [(sampleOf cfg rate n X (fun k => A k ω)).eff]) rate n
        = .ok h ∧ at? h i j = some (v ω)) ∧
      Integrable v P ∧ ∫ ω, v ω ∂P = w ∧
      ∀ m, ∫ ω, (v ω - m) ^ 2 ∂P = (w - m) ^ 2 + (rate / n) ^ 2 * ∑ k ∈ Finset.range n, weightIn cfg.bins (i, j) (X k, W k * (1 - W k)) := by
  refine ⟨_, fun ω => _, hist_on_sim cfg ha hn he heps rate n h1 X W i j hb, fun ω => hist_on_sim cfg ha hn he heps rate n h1 X _ i j hb, ?_, ?_, ?_⟩
  · simp only [share_mul cfg.bins (i, j) rate n X]
    exact (hA.mean _).1
  · simp only [share_mul cfg.bins (i, j) rate n X]
    exact (hA.mean _).2
  · intro m
    simp only [share_mul cfg.bins (i, j) rate n X]
    rw [hA.deviation, Finset.mul_sum]
    congr 1
    refine Finset.sum_congr rfl fun k _ => ?_
    unfold share weightIn
    split <;> simp

/-- **C117 (less noise).** Now the events are random as well, each with the same law, and independent uniform numbers decide.
Around every number `m`, in particular around the expected number of events, the mean square deviation of a bin of the accepted
events exceeds that of the weighted histogram by `rate² / n` times the mean of `eff (1 - eff)` in the bin. -/
theorem C117_less_noise (cfg : HistCfg ℝ) (ha : Ascending cfg.bins) (hn : cfg.normType = "on_sim") (he : cfg.energy = .simulated)
    (heps : cfg.addEps = false) (rate : ℝ) (n : Nat) (h1 : 1 ≤ n) {Ω Ω' : Type} [MeasurableSpace Ω] [MeasurableSpace Ω'] (P : Measure Ω)
    [IsProbabilityMeasure P] (P' : Measure Ω') [IsProbabilityMeasure P'] (law : Measure ((Fin cfg.bins.dims → ℝ) × ℝ))
    (X : Nat → Ω → Fin cfg.bins.dims → ℝ) (W : Nat → Ω → ℝ) (hm : ∀ k < n, Measurable (fun ω => (X k ω, W k ω)))
    (hl : ∀ k < n, P.map (fun ω => (X k ω, W k ω)) = law) (hW : ∀ k < n, ∀ ω, 0 ≤ W k ω ∧ W k ω ≤ 1)
    (U : Nat → Ω' → ℝ) (hU : ∀ k < n, Measurable (U k)) (hul : ∀ k < n, P'.map (U k) = Randgen.unif)
    (hui : ∀ i < n, ∀ j < n, i ≠ j → IndepFun (U i) (U j) P') (i j : Nat) (hb : IsBin cfg.bins i j) :
    ∃ (w : Ω → ℝ) (v : Ω → Ω' → ℝ),
      (∀ ω, ∃ h, simulateHist cfg false ((sampleOf cfg rate n (fun k => X k ω) (fun k => W k ω)).cols ++
          [(sampleOf cfg rate n (fun k => X k ω) (fun k => W k ω)).eff]) rate n = .ok h ∧ at? h i j = some (w ω)) ∧
      (∀ ω ω', ∃ h, simulateHist cfg false ((sampleOf cfg rate n (fun k => X k ω) (fun k => acceptBelow (W k ω) (U k ω'))).cols ++
          [(sampleOf cfg rate n (fun k => X k ω) (fun k => acceptBelow (W k ω) (U k ω'))).eff]) rate n = .ok h ∧ at? h i j = some (v ω ω')) ∧
      ∀ m, ∫ ω, ∫ ω', (v ω ω' - m) ^ 2 ∂P' ∂P
          = ∫ ω, (w ω - m) ^ 2 ∂P + rate ^ 2 / n * ∫ z, weightIn cfg.bins (i, j) (z.1, z.2 * (1 - z.2)) ∂law ∧
        0 ≤ ∫ z, weightIn cfg.bins (i, j) (z.1, z.2 * (1 - z.2)) ∂law := by
  have hn0 : (n : ℝ) ≠ 0 := by positivity
  refine ⟨fun ω => _, fun ω ω' => _, fun ω => hist_on_sim cfg ha hn he heps rate n h1 (fun k => X k ω) (fun k => W k ω) i j hb,
    fun ω ω' => hist_on_sim cfg ha hn he heps rate n h1 (fun k => X k ω) (fun k => acceptBelow (W k ω) (U k ω')) i j hb, ?_⟩
  intro m
  have hin : ∀ ω, ∫ ω', ((∑ k ∈ Finset.range n, rate * weightIn cfg.bins (i, j) (X k ω, acceptBelow (W k ω) (U k ω'))) / n - m) ^ 2 ∂P'
      = ((∑ k ∈ Finset.range n, rate * weightIn cfg.bins (i, j) (X k ω, W k ω)) / n - m) ^ 2
        + (rate / n) ^ 2 * ∑ k ∈ Finset.range n, weightIn cfg.bins (i, j) (X k ω, W k ω * (1 - W k ω)) := by
    intro ω
    have hA := decisions_of_uniform (P := P') (W := fun k => W k ω) (fun k hk => hW k hk ω) hU hul hui
    have e := fun A : Nat → ℝ => share_mul cfg.bins (i, j) rate n (fun k => X k ω) A
    simp only [e]
    rw [hA.deviation, Finset.mul_sum]
    congr 1
    refine Finset.sum_congr rfl fun k _ => ?_
    unfold share weightIn
    split <;> simp
  have hw : Measurable (fun z : (Fin cfg.bins.dims → ℝ) × ℝ => weightIn cfg.bins (i, j) z) := measurable_weightIn cfg.bins (i, j)
  have hw' : Measurable (fun z : (Fin cfg.bins.dims → ℝ) × ℝ => weightIn cfg.bins (i, j) (z.1, z.2 * (1 - z.2))) :=
    hw.comp (measurable_fst.prodMk (measurable_snd.mul (measurable_const.sub measurable_snd)))
  have hbd : ∀ k < n, ∀ ω, |weightIn cfg.bins (i, j) (X k ω, W k ω)| ≤ 1 := by
    intro k hk ω
    unfold weightIn
    split
    · simp only [abs_of_nonneg (hW k hk ω).1]
      exact (hW k hk ω).2
    · simp
  have hbd' : ∀ k < n, ∀ ω, |weightIn cfg.bins (i, j) (X k ω, W k ω * (1 - W k ω))| ≤ 1 := by
    intro k hk ω
    have h0 := (hW k hk ω).1
    have h1 := (hW k hk ω).2
    unfold weightIn
    split
    · simp only
      rw [abs_of_nonneg (mul_nonneg h0 (by linarith))]
      nlinarith
    · simp
  have hi1 : ∀ k ∈ Finset.range n, Integrable (fun ω => weightIn cfg.bins (i, j) (X k ω, W k ω * (1 - W k ω))) P := by
    intro k hk
    have hk' := Finset.mem_range.1 hk
    exact Integrable.of_bound (hw'.comp (hm k hk')).aestronglyMeasurable 1 (.of_forall fun ω => hbd' k hk' ω)
  have hi2 : Integrable (fun ω => ((∑ k ∈ Finset.range n, rate * weightIn cfg.bins (i, j) (X k ω, W k ω)) / n - m) ^ 2) P := by
    have h2 : ∀ k ∈ Finset.range n, MemLp (fun ω => rate * weightIn cfg.bins (i, j) (X k ω, W k ω)) 2 P := by
      intro k hk
      have hk' := Finset.mem_range.1 hk
      exact (MemLp.of_bound (hw.comp (hm k hk')).aestronglyMeasurable 1 (.of_forall fun ω => hbd k hk' ω)).const_mul rate
    have h3 : MemLp (fun ω => (∑ k ∈ Finset.range n, rate * weightIn cfg.bins (i, j) (X k ω, W k ω)) / n - m) 2 P := by
      have h4 := ((memLp_finsetSum _ h2).const_mul (n : ℝ)⁻¹).sub (memLp_const m)
      refine h4.ae_eq (.of_forall fun ω => ?_)
      simp only [Pi.sub_apply]
      rw [div_eq_inv_mul]
    exact h3.integrable_sq
  have hlaw : ∀ k ∈ Finset.range n, ∫ ω, weightIn cfg.bins (i, j) (X k ω, W k ω * (1 - W k ω)) ∂P
      = ∫ z, weightIn cfg.bins (i, j) (z.1, z.2 * (1 - z.2)) ∂law := by
    intro k hk
    have hk' := Finset.mem_range.1 hk
    rw [← hl k hk', integral_map (hm k hk').aemeasurable hw'.aestronglyMeasurable]
  constructor
  · simp only [hin]
    rw [integral_add hi2 ((integrable_finsetSum _ hi1).const_mul _), integral_const_mul, integral_finsetSum _ hi1, Finset.sum_congr rfl hlaw]
    simp only [Finset.sum_const, Finset.card_range, nsmul_eq_mul]
    congr 1
    field_simp
  · rw [← hlaw 0 (Finset.mem_range.2 h1)]
    refine integral_nonneg fun ω => ?_
    have h0 := hW 0 h1 ω
    unfold weightIn
    split
    · exact mul_nonneg h0.1 (by linarith [h0.2])
    · exact le_rfl

/-! ### A concrete case: three events, efficiencies 1/2, 1 and 1/4, one bin -/

noncomputable def thCfg : HistCfg ℝ :=
  { bins := .irreg1 [0, 1, 2], normType := "on_sim", energy := .simulated, addEps := false, nSelected := 0 }

/-- Non-vacuity: independent uniform numbers in the unit interval decide. -/
example : ∃ (w : ℝ) (v : (Fin 3 → ℝ) → ℝ), ∫ u, v u ∂(Measure.pi fun _ : Fin 3 => Randgen.unif) = w ∧
    ∀ m, (w - m) ^ 2 < ∫ u, (v u - m) ^ 2 ∂(Measure.pi fun _ : Fin 3 => Randgen.unif) := by
  let W : Nat → ℝ := fun k => if k = 0 then 1 / 2 else if k = 1 then 1 else 1 / 4
  have hW : ∀ k, 0 ≤ W k ∧ W k ≤ 1 := fun k => by
    simp only [W]
    split
    · norm_num
    · split <;> norm_num
  let U : Nat → (Fin 3 → ℝ) → ℝ := fun k u => if h : k < 3 then u ⟨k, h⟩ else 0
  have hUk : ∀ k (h : k < 3), U k = fun u => u ⟨k, h⟩ := fun k h => by simp [U, h]
  have hd := decisions_of_uniform (P := Measure.pi fun _ : Fin 3 => Randgen.unif) (n := 3) (W := W) (fun k _ => hW k) (U := U)
    (fun k h => by rw [hUk k h]; exact measurable_pi_apply _)
    (fun k h => by rw [hUk k h]; exact (measurePreserving_eval (fun _ : Fin 3 => Randgen.unif) ⟨k, h⟩).map_eq)
    (fun i hi j hj hij => by
      rw [hUk i hi, hUk j hj]
      have := iIndepFun_pi (μ := fun _ : Fin 3 => Randgen.unif) (X := fun _ x => x) (fun _ => aemeasurable_id)
      exact this.indepFun (by simpa using hij))
  obtain ⟨w, v, _, _, _, h4, h5⟩ := C117_accepted thCfg (by simp [thCfg, Ascending]) rfl rfl rfl 3 3 (by norm_num) (fun _ _ => 1 / 2) W
    _ _ hd 0 0 (by simp [thCfg, IsBin])
  refine ⟨w, v, h4, fun m => ?_⟩
  rw [h5 m]
  have hin : EventIn thCfg.bins 0 0 (posRow (fun _ : Fin thCfg.bins.dims => (1 / 2 : ℝ))) := by
    refine ⟨0, 1, 1 / 2, rfl, rfl, rfl, by norm_num, by norm_num⟩
  have : (0 : ℝ) < ∑ k ∈ Finset.range 3, weightIn thCfg.bins (0, 0) ((fun _ => 1 / 2), W k * (1 - W k)) := by
    simp only [weightIn, if_pos hin, Finset.sum_range_succ, Finset.sum_range_zero, W]
    norm_num
  have h9 : (0 : ℝ) < (3 / (3 : Nat)) ^ 2 := by norm_num
  have := mul_pos h9 this
  linarith

end Verif.Llh
