/-
Lemmas for C112: the Poisson log likelihood is concave in the prediction, so that averaging it over predictions gives at most
its value at the average.
-/
import Verif.Spec.Noise
import Verif.Lemmas.Rates
import Mathlib.MeasureTheory.Integral.Bochner.Basic

namespace Verif.Llh
open Verif Comp

theorem meanOf_eq (n : Nat) (g : Nat → ℝ) : meanOf n g = (∑ i ∈ Finset.range n, g i) / n := by
  unfold meanOf
  congr 1

theorem meanOf_sum {α : Type} (n : Nat) (l : List α) (g : Nat → α → ℝ) :
    meanOf n (fun i => (l.map (g i)).sum) = (l.map (fun a => meanOf n (fun i => g i a))).sum := by
  induction l with
  | nil => simp [meanOf_eq]
  | cons a l ih =>
    simp only [List.map_cons, List.sum_cons, ← ih]
    simp only [meanOf_eq, Finset.sum_add_distrib, add_div]

theorem meanOf_pos {n : Nat} (hn : 0 < n) {m : Nat → ℝ} (hm : ∀ i < n, 0 < m i) : 0 < meanOf n m := by
  rw [meanOf_eq]
  refine div_pos (Finset.sum_pos (fun i hi => hm i (Finset.mem_range.1 hi)) ⟨0, by simpa using hn⟩) (by exact_mod_cast hn)

/-- The mean of the tangent is the value at the mean. -/
theorem meanOf_tangent {n : Nat} (hn : 0 < n) (m : Nat → ℝ) (a s : ℝ) :
    meanOf n (fun i => a + s * (m i - meanOf n m)) = a := by
  have hn' : (n : ℝ) ≠ 0 := by exact_mod_cast hn.ne'
  have h : ∑ i ∈ Finset.range n, m i = n * meanOf n m := by rw [meanOf_eq]; field_simp
  rw [meanOf_eq]
  simp only [Finset.sum_add_distrib, ← Finset.mul_sum, Finset.sum_sub_distrib, h, Finset.sum_const, Finset.card_range,
    nsmul_eq_mul]
  field_simp
  ring

theorem bin_mean_le (c n : Nat) (hn : 0 < n) (m : Nat → ℝ) (hm : ∀ i < n, 0 < m i) :
    meanOf n (fun i => c * Real.log (m i) - m i) ≤ c * Real.log (meanOf n m) - meanOf n m := by
  have h := meanOf_tangent hn m (c * Real.log (meanOf n m) - meanOf n m) (c / meanOf n m - 1)
  rw [← h]
  rw [meanOf_eq, meanOf_eq n (fun i => _ + _)]
  refine div_le_div_of_nonneg_right (Finset.sum_le_sum fun i hi => ?_) (Nat.cast_nonneg n)
  exact bin_tangent c _ _ (meanOf_pos hn hm) (hm i (Finset.mem_range.1 hi))

theorem bin_mean_eq_iff (c n : Nat) (hn : 0 < n) (m : Nat → ℝ) (hm : ∀ i < n, 0 < m i) :
    meanOf n (fun i => c * Real.log (m i) - m i) = c * Real.log (meanOf n m) - meanOf n m ↔
      (0 < c → ∀ i < n, ∀ j < n, m i = m j) := by
  have hn' : (n : ℝ) ≠ 0 := by exact_mod_cast hn.ne'
  constructor
  · intro he hc
    have h := meanOf_tangent hn m (c * Real.log (meanOf n m) - meanOf n m) (c / meanOf n m - 1)
    rw [← h, meanOf_eq, meanOf_eq n (fun i => _ + _), div_left_inj' hn'] at he
    have := (Finset.sum_eq_sum_iff_of_le (fun i hi => bin_tangent c _ _ (meanOf_pos hn hm) (hm i (Finset.mem_range.1 hi)))).1 he
    have key : ∀ i < n, m i = meanOf n m := fun i hi =>
      bin_tangent_eq c hc _ _ (meanOf_pos hn hm) (hm i hi) (this i (Finset.mem_range.2 hi))
    intro i hi j hj
    rw [key i hi, key j hj]
  · intro h
    rcases Nat.eq_zero_or_pos c with rfl | hc
    · simp [meanOf_eq, Finset.sum_neg_distrib, neg_div]
    · have key : ∀ i < n, m i = m 0 := fun i hi => h hc i hi 0 hn
      have e : ∀ g : ℝ → ℝ, meanOf n (fun i => g (m i)) = g (m 0) := by
        intro g
        rw [meanOf_eq, Finset.sum_congr rfl (fun i hi => by rw [key i (Finset.mem_range.1 hi)])]
        simp only [Finset.sum_const, Finset.card_range, nsmul_eq_mul]
        field_simp
      rw [e (fun x => c * Real.log x - x), show meanOf n m = m 0 from e id]

theorem sum_eq_iff_of_le {α : Type} (l : List α) (f g : α → ℝ) (h : ∀ a ∈ l, f a ≤ g a) :
    (l.map f).sum = (l.map g).sum ↔ ∀ a ∈ l, f a = g a :=
  ⟨sum_eq_of_le l f g h, fun he => by rw [List.map_congr_left he]⟩

theorem logL_mean (bins : Bins ℝ) (data : List (List (Option ℝ))) (n : Nat) (hn : 0 < n) (m : Nat → Nat × Nat → ℝ)
    (hm : ∀ i < n, ∀ b ∈ binList bins, 0 < m i b) :
    meanOf n (fun i => predictedLogL bins data (m i)) ≤ predictedLogL bins data (fun b => meanOf n (fun i => m i b)) ∧
    (meanOf n (fun i => predictedLogL bins data (m i)) = predictedLogL bins data (fun b => meanOf n (fun i => m i b)) ↔
      ∀ b ∈ binList bins, 0 < countIn bins data b → ∀ i < n, ∀ j < n, m i b = m j b) := by
  unfold predictedLogL
  rw [meanOf_sum]
  have h : ∀ b ∈ binList bins, meanOf n (fun i => countIn bins data b * Real.log (m i b) - m i b) ≤
      countIn bins data b * Real.log (meanOf n (fun i => m i b)) - meanOf n (fun i => m i b) :=
    fun b hb => bin_mean_le _ n hn (fun i => m i b) (fun i hi => hm i hi b hb)
  refine ⟨List.sum_le_sum h, ?_⟩
  rw [sum_eq_iff_of_le _ _ _ h]
  exact forall₂_congr fun b hb => bin_mean_eq_iff _ n hn (fun i => m i b) (fun i hi => hm i hi b hb)

theorem zipWith_eq_zipIdx {α β γ : Type} (g : α → β → γ) (d : β) (fs : List α) (l : List β) (h : l.length = fs.length) :
    List.zipWith g fs l = fs.zipIdx.map (fun fk => g fk.1 (l.getD fk.2 d)) := by
  apply List.ext_getElem
  · simp [h]
  · intro i h1 h2
    have : i < l.length := by simp at h1; omega
    simp [List.getElem?_eq_getElem this]

/-- Averaging over the repetitions gives at most the value at the averaged predictions. -/
theorem repeats_le {K : Type} (fs : List (Fitted K)) (sss : Nat → List (List (Sample ℝ))) (n : Nat) (hn : 0 < n)
    (hp : ∀ i < n, List.Forall₂ (fun f ss => ∀ b ∈ binList f.bins, 0 < expectedIn ss b) fs (sss i)) :
    meanOf n (fun i => (List.zipWith (fun f ss => binnedLogL f.bins f.data ss) fs (sss i)).sum) ≤ logLAtMean n fs sss ∧
    (meanOf n (fun i => (List.zipWith (fun f ss => binnedLogL f.bins f.data ss) fs (sss i)).sum) = logLAtMean n fs sss ↔
      NoNoise n fs sss) := by
  have e : meanOf n (fun i => (List.zipWith (fun f ss => binnedLogL f.bins f.data ss) fs (sss i)).sum) =
      (fs.zipIdx.map (fun fk => meanOf n (fun i => predictedLogL fk.1.bins fk.1.data (expectedAt sss fk.2 i)))).sum := by
    rw [← meanOf_sum, meanOf_eq, meanOf_eq]
    congr 1
    refine Finset.sum_congr rfl fun i hi => ?_
    rw [zipWith_eq_zipIdx _ [] fs (sss i) (hp i (Finset.mem_range.1 hi)).length_eq.symm]
    rfl
  have hpos : ∀ fk ∈ fs.zipIdx, ∀ i < n, ∀ b ∈ binList fk.1.bins, 0 < expectedAt sss fk.2 i b := by
    intro fk hfk i hi b hb
    have hk := List.mem_zipIdx' hfk
    have hl := (hp i hi).length_eq
    have hk2 : fk.2 < (sss i).length := by omega
    have := (List.forall₂_iff_get.1 (hp i hi)).2 fk.2 hk.1 hk2
    unfold expectedAt
    rw [List.getD_eq_getElem?_getD, List.getElem?_eq_getElem hk2, Option.getD_some]
    simp only [List.get_eq_getElem, ← hk.2] at this
    exact this b hb
  have h := fun fk hfk => logL_mean fk.1.bins fk.1.data n hn (expectedAt sss fk.2) (hpos fk hfk)
  rw [e]
  refine ⟨List.sum_le_sum fun fk hfk => (h fk hfk).1, ?_⟩
  unfold logLAtMean NoNoise
  rw [sum_eq_iff_of_le _ _ _ fun fk hfk => (h fk hfk).1]
  exact forall₂_congr fun fk hfk => (h fk hfk).2

/-! ### Over the keys -/

section
open MeasureTheory
variable {K : Type} [MeasurableSpace K]

theorem mean_pos (μ : Measure K) [IsProbabilityMeasure μ] (m : K → ℝ) (hm : ∀ k, 0 < m k) (hi : Integrable m μ) :
    0 < ∫ k, m k ∂μ := by
  rw [integral_pos_iff_support_of_nonneg (fun k => (hm k).le) hi]
  have : Function.support m = Set.univ := by ext k; simp [(hm k).ne']
  rw [this]; simp

theorem bin_integral (μ : Measure K) [IsProbabilityMeasure μ] (c : ℕ) (m : K → ℝ) (hm : ∀ k, 0 < m k) (hi : Integrable m μ)
    (hl : 0 < c → Integrable (fun k => Real.log (m k)) μ) :
    Integrable (fun k => c * Real.log (m k) - m k) μ ∧
    ∫ k, (c * Real.log (m k) - m k) ∂μ ≤ c * Real.log (∫ k, m k ∂μ) - ∫ k, m k ∂μ ∧
    (∫ k, (c * Real.log (m k) - m k) ∂μ = c * Real.log (∫ k, m k ∂μ) - ∫ k, m k ∂μ ↔
      (0 < c → ∀ᵐ k ∂μ, m k = ∫ k, m k ∂μ)) := by
  have hM := mean_pos μ m hm hi
  generalize hMd : ∫ k, m k ∂μ = M at *
  have hint : Integrable (fun k => c * Real.log (m k) - m k) μ := by
    rcases Nat.eq_zero_or_pos c with rfl | hc
    · simpa using hi.neg
    · exact ((hl hc).const_mul _).sub hi
  have htan : Integrable (fun k => c * Real.log M - M + (c / M - 1) * (m k - M)) μ :=
    (integrable_const _).add ((hi.sub (integrable_const _)).const_mul _)
  have htv : ∫ k, (c * Real.log M - M + (c / M - 1) * (m k - M)) ∂μ = c * Real.log M - M := by
    have hsub : Integrable (fun k => m k - M) μ := hi.sub (integrable_const _)
    rw [integral_add (integrable_const _) (hsub.const_mul _), integral_const_mul, integral_sub hi (integrable_const _), hMd]
    simp
  have hle : ∀ k, c * Real.log (m k) - m k ≤ c * Real.log M - M + (c / M - 1) * (m k - M) :=
    fun k => bin_tangent c M (m k) hM (hm k)
  refine ⟨hint, ?_, ?_⟩
  · rw [← htv]
    exact integral_mono hint htan hle
  · constructor
    · intro he hc
      rw [← htv] at he
      have hz : ∫ k, (c * Real.log M - M + (c / M - 1) * (m k - M) - (c * Real.log (m k) - m k)) ∂μ = 0 := by
        rw [integral_sub htan hint, he, sub_self]
      rw [integral_eq_zero_iff_of_nonneg (fun k => sub_nonneg.2 (hle k)) (htan.sub hint)] at hz
      filter_upwards [hz] with k hk
      refine bin_tangent_eq c hc M (m k) hM (hm k) ?_
      simp only [Pi.zero_apply] at hk
      linarith
    · intro h
      rcases Nat.eq_zero_or_pos c with rfl | hc
      · simp [integral_neg, hMd]
      · rw [integral_congr_ae (g := fun _ => c * Real.log M - M) (by
          filter_upwards [h hc] with k hk
          rw [hk])]
        simp

theorem logL_integral (μ : Measure K) [IsProbabilityMeasure μ] (bins : Bins ℝ) (data : List (List (Option ℝ)))
    (m : K → Nat × Nat → ℝ) (hm : ∀ k, ∀ b ∈ binList bins, 0 < m k b)
    (hi : ∀ b ∈ binList bins, Integrable (fun k => m k b) μ)
    (hl : ∀ b ∈ binList bins, 0 < countIn bins data b → Integrable (fun k => Real.log (m k b)) μ) :
    Integrable (fun k => predictedLogL bins data (m k)) μ ∧
    ∫ k, predictedLogL bins data (m k) ∂μ ≤ predictedLogL bins data (fun b => ∫ k, m k b ∂μ) ∧
    (∫ k, predictedLogL bins data (m k) ∂μ = predictedLogL bins data (fun b => ∫ k, m k b ∂μ) ↔
      ∀ b ∈ binList bins, 0 < countIn bins data b → ∀ᵐ k ∂μ, m k b = ∫ k, m k b ∂μ) := by
  unfold predictedLogL
  have h := fun b (hb : b ∈ binList bins) => bin_integral μ (countIn bins data b) (fun k => m k b) (fun k => hm k b hb)
    (hi b hb) (hl b hb)
  have hs : ∀ l : List (Nat × Nat), (∀ b ∈ l, b ∈ binList bins) →
      Integrable (fun k => (l.map (fun b => countIn bins data b * Real.log (m k b) - m k b)).sum) μ ∧
      ∫ k, (l.map (fun b => countIn bins data b * Real.log (m k b) - m k b)).sum ∂μ =
        (l.map (fun b => ∫ k, (countIn bins data b * Real.log (m k b) - m k b) ∂μ)).sum := by
    intro l
    induction l with
    | nil => simp
    | cons b l ih =>
      intro hb
      obtain ⟨i1, i2⟩ := ih (fun b' h' => hb b' (by simp [h']))
      have i3 := (h b (hb b (by simp))).1
      simp only [List.map_cons, List.sum_cons]
      exact ⟨i3.add i1, by rw [integral_add i3 i1, i2]⟩
  obtain ⟨i1, i2⟩ := hs _ (fun _ hb => hb)
  have hle := fun b hb => (h b hb).2.1
  refine ⟨i1, ?_, ?_⟩
  · rw [i2]; exact List.sum_le_sum hle
  · rw [i2, sum_eq_iff_of_le _ _ _ hle]
    exact forall₂_congr fun b hb => (h b hb).2.2

end
end Verif.Llh
