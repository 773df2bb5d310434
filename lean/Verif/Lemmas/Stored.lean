/-
Lemmas for C116: values of a noisy density, weighted with the density itself, are larger than fresh ones.
-/
import Verif.Props.Walk

namespace Verif.Walk
open Verif Parameter MeasureTheory
open scoped ENNReal

/-- Pairing the larger numbers gives the larger sum. -/
theorem rearrange {a b c d : ℝ≥0∞} (hab : a ≤ b) (hcd : c ≤ d) : a * d + b * c ≤ a * c + b * d := by
  obtain ⟨x, rfl⟩ := exists_add_of_le hab
  obtain ⟨y, rfl⟩ := exists_add_of_le hcd
  calc a * (c + y) + (a + x) * c ≤ a * (c + y) + (a + x) * c + x * y := le_self_add
    _ = _ := by ring

/-- Chebyshev's inequality for two functions that grow together. -/
theorem lintegral_comonotone {N : Type} [MeasurableSpace N] (μ : Measure N) [IsProbabilityMeasure μ] {f g : N → ℝ≥0∞} (hf : Measurable f)
    (hg : Measurable g) (h : ∀ a b, f a ≤ f b → g a ≤ g b) : (∫⁻ a, f a ∂μ) * ∫⁻ a, g a ∂μ ≤ ∫⁻ a, f a * g a ∂μ := by
  have hp : ∀ a b, f a * g b + f b * g a ≤ f a * g a + f b * g b := by
    intro a b
    rcases le_total (f a) (f b) with hab | hab
    · exact rearrange hab (h a b hab)
    · have := rearrange hab (h b a hab)
      rwa [add_comm, add_comm (f a * g a)]
  have h1 : ∫⁻ a, ∫⁻ b, (f a * g b + f b * g a) ∂μ ∂μ ≤ ∫⁻ a, ∫⁻ b, (f a * g a + f b * g b) ∂μ ∂μ :=
    lintegral_mono fun a => lintegral_mono fun b => hp a b
  have e1 : ∀ a, ∫⁻ b, (f a * g b + f b * g a) ∂μ = f a * ∫⁻ b, g b ∂μ + (∫⁻ b, f b ∂μ) * g a := by
    intro a
    rw [lintegral_add_left (hg.const_mul _), lintegral_const_mul _ hg, lintegral_mul_const _ hf]
  have e2 : ∀ a, ∫⁻ b, (f a * g a + f b * g b) ∂μ = f a * g a + ∫⁻ b, f b * g b ∂μ := by
    intro a
    rw [lintegral_add_left measurable_const]
    simp
  have hfg : Measurable (fun a => f a * g a) := hf.mul hg
  simp only [e1, e2] at h1
  rw [lintegral_add_left (hf.mul_const _), lintegral_mul_const _ hf, lintegral_const_mul _ hg, lintegral_add_left hfg] at h1
  simp only [lintegral_const, measure_univ, mul_one] at h1
  rw [← two_mul, ← two_mul] at h1
  exact (ENNReal.mul_le_mul_iff_right (by simp) (by simp)).1 h1

section
variable {Θ N : Type} [MeasurableSpace Θ] [MeasurableSpace N] {n : Nat} {lam : Measure Θ} [SigmaFinite lam] {μ : Measure N}
  [IsProbabilityMeasure μ] {p : Θ × N → ℝ≥0∞}

/-- Positions and noises apart. -/
theorem split_noise (hpm : Measurable p) (F : (Fin n → Θ × N) → ℝ≥0∞) (hF : Measurable F) :
    ∫⁻ s, (∏ k, p (s k)) * F s ∂(Measure.pi fun _ : Fin n => lam.prod μ)
      = ∫⁻ θ, ∫⁻ κ, (∏ k, p (θ k, κ k)) * F (fun k => (θ k, κ k)) ∂(Measure.pi fun _ : Fin n => μ) ∂(Measure.pi fun _ : Fin n => lam) := by
  have hmp := measurePreserving_arrowProdEquivProdArrow Θ N (Fin n) (fun _ => lam) (fun _ => μ)
  have hpair : ∀ k, Measurable (fun q : (Fin n → Θ) × (Fin n → N) => (q.1 k, q.2 k)) := fun k =>
    ((measurable_pi_apply k).comp measurable_fst).prodMk ((measurable_pi_apply k).comp measurable_snd)
  have hg : Measurable (fun q : (Fin n → Θ) × (Fin n → N) => (∏ k, p (q.1 k, q.2 k)) * F (fun k => (q.1 k, q.2 k))) :=
    Measurable.mul (Finset.measurable_prod _ fun k _ => hpm.comp (hpair k)) (hF.comp (measurable_pi_lambda _ hpair))
  have h1 := hmp.lintegral_comp hg
  change ∫⁻ s, (∏ k, p (s k)) * F s ∂(Measure.pi fun _ : Fin n => lam.prod μ) = _ at h1
  rw [h1, lintegral_prod _ hg.aemeasurable]

/-- Of several noises only one matters besides the weights. -/
theorem fin_noise_le {f : Fin n → N → ℝ≥0∞} (hf : ∀ k, Measurable (f k)) (i : Fin n) {g : N → ℝ≥0∞} (hg : Measurable g)
    (h : ∀ a b, f i a ≤ f i b → g a ≤ g b) :
    (∏ k, ∫⁻ a, f k a ∂μ) * ∫⁻ a, g a ∂μ ≤ ∫⁻ κ, (∏ k, f k (κ k)) * g (κ i) ∂(Measure.pi fun _ : Fin n => μ) := by
  classical
  have e : ∀ κ : Fin n → N, (∏ k, f k (κ k)) * g (κ i) = ∏ k, (Function.update f i (fun a => f i a * g a)) k (κ k) := by
    intro κ
    rw [← Finset.mul_prod_erase _ _ (Finset.mem_univ i), ← Finset.mul_prod_erase (a := i) _ _ (Finset.mem_univ i)]
    have : ∏ x ∈ Finset.univ.erase i, (Function.update f i (fun a => f i a * g a)) x (κ x) = ∏ x ∈ Finset.univ.erase i, f x (κ x) := by
      refine Finset.prod_congr rfl fun x hx => ?_
      rw [Function.update_of_ne (Finset.ne_of_mem_erase hx)]
    rw [this, Function.update_self]
    ring
  simp only [e]
  rw [lintegral_fin_prod μ _ (fun k => by
    by_cases hk : k = i
    · subst hk
      have : Measurable (fun a => f k a * g a) := (hf k).mul hg
      simpa using this
    · simpa [Function.update_of_ne hk] using hf k)]
  rw [← Finset.mul_prod_erase _ _ (Finset.mem_univ i), ← Finset.mul_prod_erase (a := i) (f := fun k => ∫⁻ a, Function.update f i _ k a ∂μ) _ (Finset.mem_univ i)]
  have : ∏ x ∈ Finset.univ.erase i, ∫⁻ a, (Function.update f i (fun a => f i a * g a)) x a ∂μ = ∏ x ∈ Finset.univ.erase i, ∫⁻ a, f x a ∂μ := by
    refine Finset.prod_congr rfl fun x hx => ?_
    rw [Function.update_of_ne (Finset.ne_of_mem_erase hx)]
  rw [this, Function.update_self, mul_right_comm]
  gcongr
  exact lintegral_comonotone μ (hf i) hg h

/-- Values stored with the weights are larger than fresh ones. -/
theorem stored_ge (hpm : Measurable p) (i : Fin n) (H : (Fin n → Θ) → ℝ≥0∞) (hH : Measurable H) {g : ℝ≥0∞ → ℝ≥0∞} (hg : Monotone g) :
    ∫⁻ s, (∏ k, p (s k)) * (H (fun k => (s k).1) * ∫⁻ κ, g (p ((s i).1, κ)) ∂μ) ∂(Measure.pi fun _ : Fin n => lam.prod μ)
      ≤ ∫⁻ s, (∏ k, p (s k)) * (H (fun k => (s k).1) * g (p (s i))) ∂(Measure.pi fun _ : Fin n => lam.prod μ) := by
  have hpos : Measurable (fun s : Fin n → Θ × N => fun k => (s k).1) := measurable_pi_lambda _ fun k => measurable_fst.comp (measurable_pi_apply k)
  have hav : Measurable (fun θ => ∫⁻ κ, g (p (θ, κ)) ∂μ) := (hg.measurable.comp hpm).lintegral_prod_right'
  rw [split_noise hpm (fun s => H (fun k => (s k).1) * ∫⁻ κ, g (p ((s i).1, κ)) ∂μ)
      ((hH.comp hpos).mul (hav.comp (measurable_fst.comp (measurable_pi_apply i)))),
    split_noise hpm (fun s => H (fun k => (s k).1) * g (p (s i))) ((hH.comp hpos).mul (hg.measurable.comp (hpm.comp (measurable_pi_apply i))))]
  refine lintegral_mono fun θ => ?_
  have hf : ∀ k, Measurable (fun κ => p (θ k, κ)) := fun k => hpm.comp (measurable_const.prodMk measurable_id)
  have hprod : Measurable (fun κ : Fin n → N => ∏ k, p (θ k, κ k)) := Finset.measurable_prod _ fun k _ => (hf k).comp (measurable_pi_apply k)
  have hfull : Measurable (fun κ : Fin n → N => (∏ k, p (θ k, κ k)) * g (p (θ i, κ i))) :=
    hprod.mul (hg.measurable.comp ((hf i).comp (measurable_pi_apply i)))
  have h := fin_noise_le (μ := μ) hf i (hg.measurable.comp (hf i)) fun a b hab => hg hab
  simp only [Function.comp_def] at h
  have e : ∀ κ : Fin n → N, (∏ k, p (θ k, κ k)) * (H θ * g (p (θ i, κ i))) = H θ * ((∏ k, p (θ k, κ k)) * g (p (θ i, κ i))) := fun κ => by ring
  simp only [e]
  rw [lintegral_mul_const _ hprod, lintegral_fin_prod μ _ hf, lintegral_const_mul _ hfull]
  calc _ = H θ * ((∏ k, ∫⁻ κ, p (θ k, κ) ∂μ) * ∫⁻ κ, g (p (θ i, κ)) ∂μ) := by ring
    _ ≤ _ := by gcongr

/-- The largest value stored with the weights is larger than the largest average of fresh ones. -/
theorem best_stored_ge (hpm : Measurable p) (H : (Fin n → Θ) → ℝ≥0∞) (hH : Measurable H) {g : ℝ≥0∞ → ℝ≥0∞} (hg : Monotone g) :
    ∫⁻ s, (∏ k, p (s k)) * (H (fun k => (s k).1) * ⨆ i, ∫⁻ κ, g (p ((s i).1, κ)) ∂μ) ∂(Measure.pi fun _ : Fin n => lam.prod μ)
      ≤ ∫⁻ s, (∏ k, p (s k)) * (H (fun k => (s k).1) * ⨆ i, g (p (s i))) ∂(Measure.pi fun _ : Fin n => lam.prod μ) := by
  have hpos : Measurable (fun s : Fin n → Θ × N => fun k => (s k).1) := measurable_pi_lambda _ fun k => measurable_fst.comp (measurable_pi_apply k)
  have hav : Measurable (fun θ => ∫⁻ κ, g (p (θ, κ)) ∂μ) := (hg.measurable.comp hpm).lintegral_prod_right'
  rw [split_noise hpm (fun s => H (fun k => (s k).1) * ⨆ i, ∫⁻ κ, g (p ((s i).1, κ)) ∂μ)
      ((hH.comp hpos).mul (Measurable.iSup fun i => hav.comp (measurable_fst.comp (measurable_pi_apply i)))),
    split_noise hpm (fun s => H (fun k => (s k).1) * ⨆ i, g (p (s i)))
      ((hH.comp hpos).mul (Measurable.iSup fun i => hg.measurable.comp (hpm.comp (measurable_pi_apply i))))]
  refine lintegral_mono fun θ => ?_
  have hf : ∀ k, Measurable (fun κ => p (θ k, κ)) := fun k => hpm.comp (measurable_const.prodMk measurable_id)
  have hprod : Measurable (fun κ : Fin n → N => ∏ k, p (θ k, κ k)) := Finset.measurable_prod _ fun k _ => (hf k).comp (measurable_pi_apply k)
  simp only
  rw [lintegral_mul_const _ hprod, lintegral_fin_prod μ _ hf, ENNReal.mul_iSup, ENNReal.mul_iSup]
  refine iSup_le fun i => ?_
  have hfull : Measurable (fun κ : Fin n → N => (∏ k, p (θ k, κ k)) * g (p (θ i, κ i))) :=
    hprod.mul (hg.measurable.comp ((hf i).comp (measurable_pi_apply i)))
  have h := fin_noise_le (μ := μ) hf i (hg.measurable.comp (hf i)) fun a b hab => hg hab
  simp only [Function.comp_def] at h
  have e : ∀ κ : Fin n → N, H θ * ((∏ k, p (θ k, κ k)) * g (p (θ i, κ i))) = (∏ k, p (θ k, κ k)) * (H θ * g (p (θ i, κ i))) := fun κ => by ring
  calc _ = H θ * ((∏ k, ∫⁻ κ, p (θ k, κ) ∂μ) * ∫⁻ κ, g (p (θ i, κ)) ∂μ) := by ring
    _ ≤ H θ * ∫⁻ κ, (∏ k, p (θ k, κ k)) * g (p (θ i, κ i)) ∂(Measure.pi fun _ : Fin n => μ) := by gcongr
    _ = ∫⁻ κ, (∏ k, p (θ k, κ k)) * (H θ * g (p (θ i, κ i))) ∂(Measure.pi fun _ : Fin n => μ) := by
      rw [← lintegral_const_mul _ hfull]
      exact lintegral_congr e
    _ ≤ _ := by
      refine lintegral_mono fun κ => ?_
      gcongr
      exact le_iSup (fun i => g (p (θ i, κ i))) i

end
end Verif.Walk
