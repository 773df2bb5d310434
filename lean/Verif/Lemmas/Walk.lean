/-
Lemmas for C115: a step that accepts by the ratio of noisy densities leaves the law with that density unchanged; the stretch
move is such a step; the model of the sampler takes these steps.
-/
import Verif.Spec.Walk
import Verif.Props.Context
import Mathlib.MeasureTheory.Integral.Marginal
import Mathlib.MeasureTheory.Function.JacobianOneDim
import Mathlib.MeasureTheory.Measure.Lebesgue.EqHaar

namespace Verif.Walk
open Verif Parameter MeasureTheory
open scoped ENNReal

variable {Θ Z N : Type} [MeasurableSpace Θ] [MeasurableSpace Z] [MeasurableSpace N]

/-- A proposal is balanced -/
def Balanced (lam : Measure Θ) (ν : Measure Z) (T : Z → Θ → Θ) (r : Z → ℝ≥0∞) : Prop :=
  ∀ G : Θ → Θ → ℝ≥0∞ → ℝ≥0∞, Measurable (fun q : Θ × Θ × ℝ≥0∞ => G q.1 q.2.1 q.2.2) →
    ∫⁻ x, ∫⁻ z, G x (T z x) (r z) ∂ν ∂lam = ∫⁻ x, ∫⁻ z, r z * G (T z x) x (r z)⁻¹ ∂ν ∂lam

open Classical in
/-- the next state -/
noncomputable def nxt (T : Z → Θ → Θ) (r : Z → ℝ≥0∞) (p : Θ × N → ℝ≥0∞) (z : Z) (κ : N) (u : ℝ) (s : Θ × N) : Θ × N :=
  if ENNReal.ofReal u * p s < r z * p (T z s.1, κ) then (T z s.1, κ) else s

theorem unif_lt (c : ℝ≥0∞) : Randgen.unif {u | ENNReal.ofReal u < c} = min 1 c := by
  have hm : MeasurableSet {u : ℝ | ENNReal.ofReal u < c} := measurableSet_lt ENNReal.measurable_ofReal measurable_const
  unfold Randgen.unif
  rw [Measure.restrict_apply hm]
  rcases eq_or_ne c ⊤ with rfl | hc
  · simp
  · lift c to NNReal using hc
    rcases le_total (1 : NNReal) c with h | h
    · have : {u : ℝ | ENNReal.ofReal u < c} ∩ Set.Ico 0 1 = Set.Ico 0 1 := by
        rw [Set.inter_eq_right]
        intro u hu
        simp only [Set.mem_ofPred_eq]
        calc ENNReal.ofReal u < ENNReal.ofReal 1 := (ENNReal.ofReal_lt_ofReal_iff (by norm_num)).2 hu.2
          _ = 1 := by simp
          _ ≤ c := by exact_mod_cast h
      rw [this, min_eq_left (by exact_mod_cast h)]
      simp
    · have : {u : ℝ | ENNReal.ofReal u < c} ∩ Set.Ico 0 1 = Set.Ico 0 (c : ℝ) := by
        ext u
        simp only [Set.mem_inter_iff, Set.mem_ofPred_eq, Set.mem_Ico]
        have hh : (c : ℝ) ≤ 1 := by exact_mod_cast h
        constructor
        · rintro ⟨h1, h2, h3⟩
          refine ⟨h2, ?_⟩
          rw [ENNReal.ofReal_lt_iff_lt_toReal h2 ENNReal.coe_ne_top] at h1
          simpa using h1
        · rintro ⟨h2, h3⟩
          refine ⟨?_, h2, by linarith⟩
          rw [ENNReal.ofReal_lt_iff_lt_toReal h2 ENNReal.coe_ne_top]
          simpa using h3
      rw [this, min_eq_right (by exact_mod_cast h)]
      simp

theorem accept_mass (p q : ℝ≥0∞) (hp : p ≠ ⊤) : p * Randgen.unif {u | ENNReal.ofReal u * p < q} = min p q := by
  rcases eq_or_ne p 0 with rfl | h0
  · simp
  · have : {u : ℝ | ENNReal.ofReal u * p < q} = {u | ENNReal.ofReal u < q / p} := by
      ext u
      simp only [Set.mem_ofPred_eq]
      rw [ENNReal.lt_div_iff_mul_lt (Or.inl h0) (Or.inl hp)]
    rw [this, unif_lt, mul_min, mul_one, ENNReal.mul_div_cancel h0 hp]

instance : IsProbabilityMeasure Randgen.unif := by unfold Randgen.unif; constructor; simp

/-- averaging over the acceptance -/
theorem accept_average (p q a b : ℝ≥0∞) (hp : p ≠ ⊤) :
    p * ∫⁻ u, (open Classical in if ENNReal.ofReal u * p < q then a else b) ∂Randgen.unif
      = min p q * a + p * Randgen.unif {u | ¬ ENNReal.ofReal u * p < q} * b := by
  classical
  have hm : MeasurableSet {u : ℝ | ENNReal.ofReal u * p < q} :=
    measurableSet_lt (ENNReal.measurable_ofReal.mul_const p) measurable_const
  have hm' : MeasurableSet {u : ℝ | ¬ ENNReal.ofReal u * p < q} := hm.compl
  have : (fun u : ℝ => (if ENNReal.ofReal u * p < q then a else b))
      = {u : ℝ | ENNReal.ofReal u * p < q}.indicator (fun _ => a) + {u : ℝ | ¬ ENNReal.ofReal u * p < q}.indicator (fun _ => b) := by
    funext u
    by_cases h : ENNReal.ofReal u * p < q
    · simp [h, Set.indicator, not_le.2 h]
    · simp [h, Set.indicator, not_lt.1 h]
  rw [this]
  change p * ∫⁻ u, ({u : ℝ | ENNReal.ofReal u * p < q}.indicator (fun _ => a) u + {u : ℝ | ¬ ENNReal.ofReal u * p < q}.indicator (fun _ => b) u) ∂_ = _
  rw [lintegral_add_left (measurable_const.indicator hm), lintegral_indicator_const hm, lintegral_indicator_const hm', mul_add,
    ← accept_mass p q hp]
  ring

theorem reject_mass (p q : ℝ≥0∞) : Randgen.unif {u | ENNReal.ofReal u * p < q} + Randgen.unif {u | ¬ ENNReal.ofReal u * p < q} = 1 := by
  have hm : MeasurableSet {u : ℝ | ENNReal.ofReal u * p < q} :=
    measurableSet_lt (ENNReal.measurable_ofReal.mul_const p) measurable_const
  rw [← measure_univ (μ := Randgen.unif)]
  exact measure_add_measure_compl hm

section
variable {lam : Measure Θ} {ν : Measure Z} {μ : Measure N} [IsProbabilityMeasure ν] [IsProbabilityMeasure μ] {T : Z → Θ → Θ}
  {r : Z → ℝ≥0∞} {p : Θ × N → ℝ≥0∞}

theorem detailed_balance (hb : Balanced lam ν T r) (hr : ∀ z, r z ≠ 0 ∧ r z ≠ ⊤) (hT : Measurable (fun q : Z × Θ => T q.1 q.2)) (hrm : Measurable r)
    (hpm : Measurable p) (F : Θ × N → ℝ≥0∞) (hF : Measurable F) :
    ∫⁻ s, ∫⁻ z, ∫⁻ κ, min (p s) (r z * p (T z s.1, κ)) * F (T z s.1, κ) ∂μ ∂ν ∂(lam.prod μ)
      = ∫⁻ s, ∫⁻ z, ∫⁻ κ, min (p s) (r z * p (T z s.1, κ)) * F s ∂μ ∂ν ∂(lam.prod μ) := by
  have hTx : Measurable (fun q : Θ × Z => T q.2 q.1) := hT.comp measurable_swap
  -- the integrands as functions of everything
  have m1 : Measurable (fun q : ((Θ × N) × Z) × N => min (p q.1.1) (r q.1.2 * p (T q.1.2 q.1.1.1, q.2)) * F (T q.1.2 q.1.1.1, q.2)) := by
    have hy : Measurable (fun q : ((Θ × N) × Z) × N => (T q.1.2 q.1.1.1, q.2)) :=
      (hTx.comp ((measurable_fst.comp (measurable_fst.comp measurable_fst)).prodMk (measurable_snd.comp measurable_fst))).prodMk measurable_snd
    exact ((hpm.comp (measurable_fst.comp measurable_fst)).min ((hrm.comp (measurable_snd.comp measurable_fst)).mul (hpm.comp hy))).mul (hF.comp hy)
  have m2 : Measurable (fun q : ((Θ × N) × Z) × N => min (p q.1.1) (r q.1.2 * p (T q.1.2 q.1.1.1, q.2)) * F q.1.1) := by
    have hy : Measurable (fun q : ((Θ × N) × Z) × N => (T q.1.2 q.1.1.1, q.2)) :=
      (hTx.comp ((measurable_fst.comp (measurable_fst.comp measurable_fst)).prodMk (measurable_snd.comp measurable_fst))).prodMk measurable_snd
    exact ((hpm.comp (measurable_fst.comp measurable_fst)).min ((hrm.comp (measurable_snd.comp measurable_fst)).mul (hpm.comp hy))).mul
      (hF.comp (measurable_fst.comp measurable_fst))
  have n1 := m1.lintegral_prod_right' (ν := μ)
  have n2 := m2.lintegral_prod_right' (ν := μ)
  have o1 := n1.lintegral_prod_right' (ν := ν)
  have o2 := n2.lintegral_prod_right' (ν := ν)
  rw [lintegral_prod _ o1.aemeasurable, lintegral_prod _ o2.aemeasurable]
  have sw1 : ∀ x, ∫⁻ k, ∫⁻ z, ∫⁻ κ, min (p (x, k)) (r z * p (T z x, κ)) * F (T z x, κ) ∂μ ∂ν ∂μ
      = ∫⁻ z, ∫⁻ k, ∫⁻ κ, min (p (x, k)) (r z * p (T z x, κ)) * F (T z x, κ) ∂μ ∂μ ∂ν := by
    intro x
    refine lintegral_lintegral_swap ?_
    exact (n1.comp ((measurable_const.prodMk measurable_fst).prodMk measurable_snd)).aemeasurable
  have sw2 : ∀ x, ∫⁻ k, ∫⁻ z, ∫⁻ κ, min (p (x, k)) (r z * p (T z x, κ)) * F (x, k) ∂μ ∂ν ∂μ
      = ∫⁻ z, ∫⁻ k, ∫⁻ κ, min (p (x, k)) (r z * p (T z x, κ)) * F (x, k) ∂μ ∂μ ∂ν := by
    intro x
    refine lintegral_lintegral_swap ?_
    exact (n2.comp ((measurable_const.prodMk measurable_fst).prodMk measurable_snd)).aemeasurable
  simp only [sw1, sw2]
  have hG : Measurable (fun q : Θ × Θ × ℝ≥0∞ => ∫⁻ k, ∫⁻ κ, min (p (q.1, k)) (q.2.2 * p (q.2.1, κ)) * F (q.2.1, κ) ∂μ ∂μ) := by
    have h1 : Measurable (fun q : ((Θ × Θ × ℝ≥0∞) × N) × N => min (p (q.1.1.1, q.1.2)) (q.1.1.2.2 * p (q.1.1.2.1, q.2)) * F (q.1.1.2.1, q.2)) := by
      have ha : Measurable (fun q : ((Θ × Θ × ℝ≥0∞) × N) × N => (q.1.1.1, q.1.2)) := by fun_prop
      have hb : Measurable (fun q : ((Θ × Θ × ℝ≥0∞) × N) × N => (q.1.1.2.1, q.2)) := by fun_prop
      have hc : Measurable (fun q : ((Θ × Θ × ℝ≥0∞) × N) × N => q.1.1.2.2) := by fun_prop
      exact ((hpm.comp ha).min (hc.mul (hpm.comp hb))).mul (hF.comp hb)
    exact (h1.lintegral_prod_right' (ν := μ)).lintegral_prod_right' (ν := μ)
  have key := hb (fun x y ρ => ∫⁻ k, ∫⁻ κ, min (p (x, k)) (ρ * p (y, κ)) * F (y, κ) ∂μ ∂μ) hG
  refine key.trans ?_
  refine lintegral_congr fun x => lintegral_congr fun z => ?_
  have hk : Measurable (fun q : N × N => min (r z * p (T z x, q.1)) (p (x, q.2)) * F (x, q.2)) := by
    have ha : Measurable (fun q : N × N => (T z x, q.1)) := by fun_prop
    have hb : Measurable (fun q : N × N => (x, q.2)) := by fun_prop
    exact (((hpm.comp ha).const_mul _).min (hpm.comp hb)).mul (hF.comp hb)
  have e1 : r z * ∫⁻ k, ∫⁻ κ, min (p (T z x, k)) ((r z)⁻¹ * p (x, κ)) * F (x, κ) ∂μ ∂μ
      = ∫⁻ k, ∫⁻ κ, min (r z * p (T z x, k)) (p (x, κ)) * F (x, κ) ∂μ ∂μ := by
    rw [← lintegral_const_mul' _ _ (hr z).2]
    refine lintegral_congr fun k => ?_
    rw [← lintegral_const_mul' _ _ (hr z).2]
    refine lintegral_congr fun κ => ?_
    rw [← mul_assoc, mul_min, ← mul_assoc, ENNReal.mul_inv_cancel (hr z).1 (hr z).2, one_mul]
  rw [e1, lintegral_lintegral_swap hk.aemeasurable]
  refine lintegral_congr fun k => lintegral_congr fun κ => ?_
  rw [min_comm]

/-- The law with density `p` is unchanged by a step. -/
theorem step_invariant (hb : Balanced lam ν T r) (hr : ∀ z, r z ≠ 0 ∧ r z ≠ ⊤) (hT : Measurable (fun q : Z × Θ => T q.1 q.2)) (hrm : Measurable r)
    (hpm : Measurable p) (hp : ∀ s, p s ≠ ⊤) (F : Θ × N → ℝ≥0∞) (hF : Measurable F) :
    ∫⁻ s, p s * ∫⁻ z, ∫⁻ κ, ∫⁻ u, F (nxt T r p z κ u s) ∂Randgen.unif ∂μ ∂ν ∂(lam.prod μ) = ∫⁻ s, p s * F s ∂(lam.prod μ) := by
  classical
  have hTx : Measurable (fun q : Θ × Z => T q.2 q.1) := hT.comp measurable_swap
  have hy : Measurable (fun q : ((Θ × N) × Z) × N => (T q.1.2 q.1.1.1, q.2)) :=
    (hTx.comp ((measurable_fst.comp (measurable_fst.comp measurable_fst)).prodMk (measurable_snd.comp measurable_fst))).prodMk measurable_snd
  have m1 : Measurable (fun q : ((Θ × N) × Z) × N => min (p q.1.1) (r q.1.2 * p (T q.1.2 q.1.1.1, q.2)) * F (T q.1.2 q.1.1.1, q.2)) :=
    ((hpm.comp (measurable_fst.comp measurable_fst)).min ((hrm.comp (measurable_snd.comp measurable_fst)).mul (hpm.comp hy))).mul (hF.comp hy)
  have m2 : Measurable (fun q : ((Θ × N) × Z) × N => min (p q.1.1) (r q.1.2 * p (T q.1.2 q.1.1.1, q.2)) * F q.1.1) :=
    ((hpm.comp (measurable_fst.comp measurable_fst)).min ((hrm.comp (measurable_snd.comp measurable_fst)).mul (hpm.comp hy))).mul
      (hF.comp (measurable_fst.comp measurable_fst))
  have n1 := m1.lintegral_prod_right' (ν := μ)
  have n2 := m2.lintegral_prod_right' (ν := μ)
  have o1 := n1.lintegral_prod_right' (ν := ν)
  have o2 := n2.lintegral_prod_right' (ν := ν)
  have a1 : ∀ s : Θ × N, Measurable (fun z => ∫⁻ κ, min (p s) (r z * p (T z s.1, κ)) * F (T z s.1, κ) ∂μ) :=
    fun s => n1.comp (measurable_const.prodMk measurable_id : Measurable (fun z : Z => (s, z)))
  have a2 : ∀ s : Θ × N, Measurable (fun z => ∫⁻ κ, min (p s) (r z * p (T z s.1, κ)) * F s ∂μ) :=
    fun s => n2.comp (measurable_const.prodMk measurable_id : Measurable (fun z : Z => (s, z)))
  have b1 : ∀ (s : Θ × N) (z : Z), Measurable (fun κ => min (p s) (r z * p (T z s.1, κ)) * F (T z s.1, κ)) :=
    fun s z => m1.comp (measurable_const.prodMk measurable_id : Measurable (fun κ : N => ((s, z), κ)))
  have b2 : ∀ (s : Θ × N) (z : Z), Measurable (fun κ => min (p s) (r z * p (T z s.1, κ)) * F s) :=
    fun s z => m2.comp (measurable_const.prodMk measurable_id : Measurable (fun κ : N => ((s, z), κ)))
  set rej : (Θ × N) → Z → N → ℝ≥0∞ := fun s z κ => p s * Randgen.unif {u | ¬ ENNReal.ofReal u * p s < r z * p (T z s.1, κ)} with hrej
  have e : ∀ s, p s * ∫⁻ z, ∫⁻ κ, ∫⁻ u, F (nxt T r p z κ u s) ∂Randgen.unif ∂μ ∂ν
      = ∫⁻ z, ∫⁻ κ, (min (p s) (r z * p (T z s.1, κ)) * F (T z s.1, κ) + rej s z κ * F s) ∂μ ∂ν := by
    intro s
    rw [← lintegral_const_mul' _ _ (hp s)]
    refine lintegral_congr fun z => ?_
    rw [← lintegral_const_mul' _ _ (hp s)]
    refine lintegral_congr fun κ => ?_
    rw [← accept_average (p s) (r z * p (T z s.1, κ)) (F (T z s.1, κ)) (F s) (hp s)]
    congr 1
    refine lintegral_congr fun u => ?_
    unfold nxt
    split <;> rfl
  have split1 : ∀ s, ∫⁻ z, ∫⁻ κ, (min (p s) (r z * p (T z s.1, κ)) * F (T z s.1, κ) + rej s z κ * F s) ∂μ ∂ν
      = ∫⁻ z, ∫⁻ κ, min (p s) (r z * p (T z s.1, κ)) * F (T z s.1, κ) ∂μ ∂ν + ∫⁻ z, ∫⁻ κ, rej s z κ * F s ∂μ ∂ν := by
    intro s
    rw [← lintegral_add_left (a1 s)]
    refine lintegral_congr fun z => ?_
    rw [← lintegral_add_left (b1 s z)]
  have split2 : ∀ s, ∫⁻ z, ∫⁻ κ, min (p s) (r z * p (T z s.1, κ)) * F s ∂μ ∂ν + ∫⁻ z, ∫⁻ κ, rej s z κ * F s ∂μ ∂ν = p s * F s := by
    intro s
    rw [← lintegral_add_left (a2 s)]
    have : ∀ z, ∫⁻ κ, min (p s) (r z * p (T z s.1, κ)) * F s ∂μ + ∫⁻ κ, rej s z κ * F s ∂μ = p s * F s := by
      intro z
      rw [← lintegral_add_left (b2 s z)]
      have : ∀ κ, min (p s) (r z * p (T z s.1, κ)) * F s + rej s z κ * F s = p s * F s := by
        intro κ
        rw [← accept_mass _ _ (hp s), ← add_mul, hrej, ← mul_add, reject_mass, mul_one]
      simp [this]
    simp [this]
  simp only [e, split1]
  rw [lintegral_add_left o1, detailed_balance hb hr hT hrm hpm F hF, ← lintegral_add_left o2]
  exact lintegral_congr fun s => split2 s

end
theorem stretch_inverse (a : ℝ) (ha : 1 < a) (h : ℝ → ℝ≥0∞) :
    ∫⁻ w, h (stretch a w) ∂Randgen.unif = ∫⁻ w, ENNReal.ofReal (stretch a w)⁻¹ * h (stretch a w)⁻¹ ∂Randgen.unif := by
  have hset : Randgen.unif = volume.restrict (Set.Icc (0 : ℝ) 1) := by
    unfold Randgen.unif
    exact Measure.restrict_congr_set Ico_ae_eq_Icc
  rw [hset]
  set φ : ℝ → ℝ := fun w => (a / ((a - 1) * w + 1) - 1) / (a - 1) with hφ
  have ha1 : 0 < a - 1 := by linarith
  have hpos : ∀ w ∈ Set.Icc (0 : ℝ) 1, 0 < (a - 1) * w + 1 := fun w hw => by nlinarith [hw.1, mul_nonneg ha1.le hw.1]
  have hback : ∀ w ∈ Set.Icc (0 : ℝ) 1, (a - 1) * φ w + 1 = a / ((a - 1) * w + 1) := by
    intro w hw
    have := hpos w hw
    simp only [hφ]
    field_simp
    ring
  have hmaps : ∀ w ∈ Set.Icc (0 : ℝ) 1, φ w ∈ Set.Icc (0 : ℝ) 1 := by
    intro w hw
    have hw' := hpos w hw
    simp only [hφ]
    constructor
    · apply div_nonneg _ ha1.le
      rw [sub_nonneg, le_div_iff₀ hw']
      nlinarith [hw.2]
    · rw [div_le_one ha1, sub_le_sub_iff_right, div_le_iff₀ hw']
      nlinarith [mul_nonneg ha1.le hw.1]
  have hinv : ∀ w ∈ Set.Icc (0 : ℝ) 1, φ (φ w) = w := by
    intro w hw
    have e := hback w hw
    have hw' := hpos w hw
    change (a / ((a - 1) * φ w + 1) - 1) / (a - 1) = w
    rw [e]
    field_simp
    ring
  have himg : φ '' Set.Icc 0 1 = Set.Icc 0 1 := by
    ext w
    constructor
    · rintro ⟨v, hv, rfl⟩
      exact hmaps v hv
    · intro hw
      exact ⟨φ w, hmaps w hw, hinv w hw⟩
  have hinj : Set.InjOn φ (Set.Icc 0 1) := by
    intro v hv w hw e
    rw [← hinv v hv, ← hinv w hw, e]
  have hder : ∀ w ∈ Set.Icc (0 : ℝ) 1, HasDerivWithinAt φ (-(stretch a w)⁻¹) (Set.Icc 0 1) w := by
    intro w hw
    have hw' := (hpos w hw).ne'
    have h1 : HasDerivAt (fun w : ℝ => (a - 1) * w + 1) (a - 1) w := by
      simpa using ((hasDerivAt_id w).const_mul (a - 1)).add_const 1
    have h2 : HasDerivAt φ ((a * (-(a - 1) / ((a - 1) * w + 1) ^ 2)) / (a - 1)) w :=
      ((((h1.inv hw').const_mul a).sub_const 1).div_const (a - 1)).congr_of_eventuallyEq
        (Filter.Eventually.of_forall fun v => by simp [hφ, div_eq_mul_inv])
    refine (h2.congr_deriv ?_).hasDerivWithinAt
    unfold stretch
    field_simp
  have key := lintegral_image_eq_lintegral_abs_deriv_mul measurableSet_Icc hder hinj (fun w => h (stretch a w))
  rw [himg] at key
  rw [key]
  refine setLIntegral_congr_fun measurableSet_Icc ?_
  intro w hw
  have hw' := hpos w hw
  have hz : 0 < stretch a w := by unfold stretch; positivity
  have e : stretch a (φ w) = (stretch a w)⁻¹ := by
    unfold stretch
    rw [hback w hw]
    field_simp
  simp only [e, abs_neg, abs_of_pos (inv_pos.2 hz)]

variable {d : Nat}

theorem scaled (c : Fin d → ℝ) (z : ℝ) (hz : 0 < z) (f : (Fin d → ℝ) → ℝ≥0∞) (hf : Measurable f) :
    ∫⁻ x, f (c - z • (c - x)) = ENNReal.ofReal (z ^ d)⁻¹ * ∫⁻ y, f y := by
  have h1 : ∫⁻ x, f (c - z • (c - x)) = ∫⁻ x, f (c - z • x) := lintegral_sub_left_eq_self (fun x => f (c - z • x)) c
  have h2 : ∫⁻ x, f (c - z • x) = ∫⁻ y, f (c - y) ∂(Measure.map (fun x : Fin d → ℝ => z • x) volume) := by
    rw [lintegral_map]
    · exact hf.comp (measurable_const.sub measurable_id)
    · exact measurable_const_smul z
  rw [h1, h2, Measure.map_addHaar_smul _ hz.ne', lintegral_smul_measure, lintegral_sub_left_eq_self f c]
  simp [abs_of_pos hz]

noncomputable def ratio (d : Nat) (z : ℝ) : ℝ≥0∞ := ENNReal.ofReal (Real.exp (((d : ℝ) - 1) * Real.log z))

theorem ratio_inv {z : ℝ} : (ratio d z)⁻¹ = ratio d z⁻¹ := by
  unfold ratio
  rw [← ENNReal.ofReal_inv_of_pos (Real.exp_pos _), Real.log_inv, mul_neg, Real.exp_neg]

theorem ratio_pow {z : ℝ} (hz : 0 < z) : ratio d z * ENNReal.ofReal (z ^ d)⁻¹ = ENNReal.ofReal z⁻¹ := by
  unfold ratio
  rw [← ENNReal.ofReal_mul (Real.exp_pos _).le]
  congr 1
  rw [sub_mul, one_mul, Real.exp_sub, Real.exp_log hz, mul_comm (d : ℝ), Real.exp_mul, Real.exp_log hz, Real.rpow_natCast]
  field_simp

theorem stretch_measurable (a : ℝ) : Measurable (stretch a) := by unfold stretch; fun_prop

theorem ratio_measurable : Measurable (ratio d) := by unfold ratio; fun_prop

/-- The stretch move is balanced. -/
theorem stretch_balanced (a : ℝ) (ha : 1 < a) (c : Fin d → ℝ) :
    Balanced volume Randgen.unif (fun w x => c - stretch a w • (c - x)) (fun w => ratio d (stretch a w)) := by
  intro G hG
  have hzpos : ∀ w ∈ Set.Ico (0 : ℝ) 1, 0 < stretch a w := by
    intro w hw
    have : 0 < (a - 1) * w + 1 := by nlinarith [hw.1]
    unfold stretch; positivity
  have hm : Measurable (fun q : (Fin d → ℝ) × ℝ => stretch a q.2) := (stretch_measurable a).comp measurable_snd
  have hl : ∫⁻ x, ∫⁻ w, ratio d (stretch a w) * G (c - stretch a w • (c - x)) x (ratio d (stretch a w))⁻¹ ∂Randgen.unif
      = ∫⁻ w, ∫⁻ x, ratio d (stretch a w) * G (c - stretch a w • (c - x)) x (ratio d (stretch a w))⁻¹ ∂volume ∂Randgen.unif := by
    refine lintegral_lintegral_swap ?_
    refine Measurable.aemeasurable ?_
    have hr : Measurable (fun q : (Fin d → ℝ) × ℝ => ratio d (stretch a q.2)) := ratio_measurable.comp hm
    exact hr.mul (hG.comp ((measurable_const.sub (hm.smul (measurable_const.sub measurable_fst))).prodMk (measurable_fst.prodMk hr.inv)))
  rw [hl]
  have hr : ∫⁻ w, ∫⁻ x, ratio d (stretch a w) * G (c - stretch a w • (c - x)) x (ratio d (stretch a w))⁻¹ ∂volume ∂Randgen.unif
      = ∫⁻ w, ∫⁻ y, ENNReal.ofReal (stretch a w)⁻¹ * G y (c - (stretch a w)⁻¹ • (c - y)) (ratio d (stretch a w)⁻¹) ∂volume ∂Randgen.unif := by
    unfold Randgen.unif
    refine setLIntegral_congr_fun measurableSet_Ico ?_
    intro w hw
    have hz := hzpos w hw
    have hmy : Measurable (fun y => G y (c - (stretch a w)⁻¹ • (c - y)) (ratio d (stretch a w)⁻¹)) := by
      have : Measurable (fun y : Fin d → ℝ => (y, c - (stretch a w)⁻¹ • (c - y), ratio d (stretch a w)⁻¹)) := by fun_prop
      exact hG.comp this
    have := scaled c (stretch a w) hz _ hmy
    simp only [sub_sub_cancel, smul_smul, inv_mul_cancel₀ hz.ne', one_smul] at this
    change ∫⁻ x, _ = ∫⁻ y, _
    rw [lintegral_const_mul' _ _ (by simp [ratio]), ratio_inv, this, ← mul_assoc, ratio_pow hz, lintegral_const_mul' _ _ (by simp)]
  rw [hr]
  refine Eq.trans ?_ (lintegral_lintegral_swap ?_).symm
  · refine lintegral_congr fun x => ?_
    exact stretch_inverse a ha (fun z => G x (c - z • (c - x)) (ratio d z))
  · refine Measurable.aemeasurable ?_
    have hm : Measurable (fun q : ℝ × (Fin d → ℝ) => (stretch a q.1)⁻¹) := ((stretch_measurable a).comp measurable_fst).inv
    exact (ENNReal.measurable_ofReal.comp hm).mul
      (hG.comp (measurable_snd.prodMk ((measurable_const.sub (hm.smul (measurable_const.sub measurable_snd))).prodMk (ratio_measurable.comp hm))))

section
variable {n : Nat} {lam : Measure Θ} {ν : Measure Z} {μ : Measure N} [SigmaFinite lam] [IsProbabilityMeasure ν] [IsProbabilityMeasure μ]
  {T : Θ → Z → Θ → Θ} {r : Z → ℝ≥0∞} {p : Θ × N → ℝ≥0∞}

/-- One walker moves with a partner. -/
noncomputable def pmove (T : Θ → Z → Θ → Θ) (r : Z → ℝ≥0∞) (p : Θ × N → ℝ≥0∞) (i j : Fin n) (z : Z) (κ : N) (u : ℝ)
    (s : Fin n → Θ × N) : Fin n → Θ × N := Function.update s i (nxt (T (s j).1) r p z κ u (s i))

theorem pmove_measurable (hT : Measurable (fun q : Θ × Z × Θ => T q.1 q.2.1 q.2.2)) (hrm : Measurable r) (hpm : Measurable p) (i j : Fin n) :
    Measurable (fun q : (((Fin n → Θ × N) × Z) × N) × ℝ => pmove T r p i j q.1.1.2 q.1.2 q.2 q.1.1.1) := by
  classical
  have hs : Measurable (fun q : (((Fin n → Θ × N) × Z) × N) × ℝ => q.1.1.1) := by fun_prop
  have hi : Measurable (fun q : (((Fin n → Θ × N) × Z) × N) × ℝ => q.1.1.1 i) := (measurable_pi_apply i).comp hs
  have hj : Measurable (fun q : (((Fin n → Θ × N) × Z) × N) × ℝ => q.1.1.1 j) := (measurable_pi_apply j).comp hs
  have hz : Measurable (fun q : (((Fin n → Θ × N) × Z) × N) × ℝ => q.1.1.2) := by fun_prop
  have hk : Measurable (fun q : (((Fin n → Θ × N) × Z) × N) × ℝ => q.1.2) := by fun_prop
  have hy : Measurable (fun q : (((Fin n → Θ × N) × Z) × N) × ℝ => (T (q.1.1.1 j).1 q.1.1.2 (q.1.1.1 i).1, q.1.2)) :=
    (hT.comp ((measurable_fst.comp hj).prodMk (hz.prodMk (measurable_fst.comp hi)))).prodMk hk
  have hn : Measurable (fun q : (((Fin n → Θ × N) × Z) × N) × ℝ => nxt (T (q.1.1.1 j).1) r p q.1.1.2 q.1.2 q.2 (q.1.1.1 i)) := by
    unfold nxt
    refine Measurable.ite ?_ hy hi
    exact measurableSet_lt ((ENNReal.measurable_ofReal.comp measurable_snd).mul (hpm.comp hi)) ((hrm.comp hz).mul (hpm.comp hy))
  exact measurable_update'.comp (hs.prodMk hn)

/-- The expectation after a move. -/
noncomputable def afterMove (ν : Measure Z) (μ : Measure N) (T : Θ → Z → Θ → Θ) (r : Z → ℝ≥0∞) (p : Θ × N → ℝ≥0∞) (i j : Fin n)
    (F : (Fin n → Θ × N) → ℝ≥0∞) (s : Fin n → Θ × N) : ℝ≥0∞ :=
  ∫⁻ z, ∫⁻ κ, ∫⁻ u, F (pmove T r p i j z κ u s) ∂Randgen.unif ∂μ ∂ν

theorem afterMove_measurable (hT : Measurable (fun q : Θ × Z × Θ => T q.1 q.2.1 q.2.2)) (hrm : Measurable r) (hpm : Measurable p) (i j : Fin n)
    (F : (Fin n → Θ × N) → ℝ≥0∞) (hF : Measurable F) : Measurable (afterMove ν μ T r p i j F) :=
  (((hF.comp (pmove_measurable hT hrm hpm i j)).lintegral_prod_right' (ν := Randgen.unif)).lintegral_prod_right' (ν := μ)).lintegral_prod_right' (ν := ν)

theorem move_invariant (hb : ∀ c, Balanced lam ν (T c) r) (hr : ∀ z, r z ≠ 0 ∧ r z ≠ ⊤) (hT : Measurable (fun q : Θ × Z × Θ => T q.1 q.2.1 q.2.2))
    (hrm : Measurable r) (hpm : Measurable p) (hp : ∀ s, p s ≠ ⊤) (i j : Fin n) (hij : j ≠ i) (F : (Fin n → Θ × N) → ℝ≥0∞) (hF : Measurable F) :
    ∫⁻ s, (∏ k, p (s k)) * afterMove ν μ T r p i j F s ∂(Measure.pi fun _ => lam.prod μ)
      = ∫⁻ s, (∏ k, p (s k)) * F s ∂(Measure.pi fun _ => lam.prod μ) := by
  classical
  have hP : Measurable (fun s : Fin n → Θ × N => ∏ k, p (s k)) :=
    Finset.measurable_prod _ fun k _ => hpm.comp (measurable_pi_apply k)
  have hL : Measurable (fun s : Fin n → Θ × N => (∏ k, p (s k)) * afterMove ν μ T r p i j F s) :=
    hP.mul (afterMove_measurable (ν := ν) (μ := μ) hT hrm hpm i j F hF)
  have hR : Measurable (fun s : Fin n → Θ × N => (∏ k, p (s k)) * F s) := hP.mul hF
  by_cases hne : Nonempty (Fin n → Θ × N)
  · obtain ⟨s0⟩ := hne
    rw [lintegral_eq_lmarginal_univ s0, lintegral_eq_lmarginal_univ s0, lmarginal_erase' _ hL (Finset.mem_univ i),
      lmarginal_erase' _ hR (Finset.mem_univ i)]
    congr 1
    funext s
    have hprod : ∀ x, ∏ k, p (Function.update s i x k) = (∏ k ∈ Finset.univ.erase i, p (s k)) * p x := by
      intro x
      rw [← Finset.prod_erase_mul _ _ (Finset.mem_univ i), Function.update_self]
      congr 1
      refine Finset.prod_congr rfl fun k hk => ?_
      rw [Function.update_of_ne (Finset.ne_of_mem_erase hk)]
    have hmv : ∀ z κ u x, pmove T r p i j z κ u (Function.update s i x) = Function.update s i (nxt (T (s j).1) r p z κ u x) := by
      intro z κ u x
      unfold pmove
      rw [Function.update_self, Function.update_of_ne hij, Function.update_idem]
    have hmu : Measurable (fun x => F (Function.update s i x)) := hF.comp (measurable_update s)
    have hTs : Measurable (fun q : Z × Θ => T (s j).1 q.1 q.2) := hT.comp (measurable_const.prodMk measurable_id)
    have key := step_invariant (hb (s j).1) hr hTs hrm hpm hp (fun x => F (Function.update s i x)) hmu (μ := μ)
    simp only [hprod, afterMove, hmv, mul_assoc]
    have hfin : (∏ k ∈ Finset.univ.erase i, p (s k)) ≠ ⊤ := ENNReal.prod_ne_top fun k _ => hp _
    rw [lintegral_const_mul' _ _ hfin, lintegral_const_mul' _ _ hfin, key]
  · have : IsEmpty (Fin n → Θ × N) := not_nonempty_iff.1 hne
    simp
end

/-- The expectation after a schedule of moves, each with a partner taken uniformly from a list. -/
noncomputable def pexp {n : Nat} (ν : Measure Z) (μ : Measure N) (T : Θ → Z → Θ → Θ) (r : Z → ℝ≥0∞) (p : Θ × N → ℝ≥0∞) :
    List (Fin n × List (Fin n)) → ((Fin n → Θ × N) → ℝ≥0∞) → (Fin n → Θ × N) → ℝ≥0∞
  | [], F => F
  | (i, js) :: rest, F => fun s => (js.map (fun j => afterMove ν μ T r p i j (pexp ν μ T r p rest F) s)).sum / js.length

section
variable {n : Nat} {lam : Measure Θ} {ν : Measure Z} {μ : Measure N} [SigmaFinite lam] [IsProbabilityMeasure ν] [IsProbabilityMeasure μ]
  {T : Θ → Z → Θ → Θ} {r : Z → ℝ≥0∞} {p : Θ × N → ℝ≥0∞}

theorem list_sum_measurable {α β : Type} [MeasurableSpace α] (l : List β) (f : β → α → ℝ≥0∞) (h : ∀ b ∈ l, Measurable (f b)) :
    Measurable (fun a => (l.map (fun b => f b a)).sum) := by
  induction l with
  | nil => simp
  | cons b l ih =>
    simp only [List.map_cons, List.sum_cons]
    exact (h b (by simp)).add (ih fun b hb => h b (by simp [hb]))

theorem lintegral_list_sum {α β : Type} [MeasurableSpace α] (m : Measure α) (l : List β) (f : β → α → ℝ≥0∞) (h : ∀ b ∈ l, Measurable (f b)) :
    ∫⁻ a, (l.map (fun b => f b a)).sum ∂m = (l.map (fun b => ∫⁻ a, f b a ∂m)).sum := by
  induction l with
  | nil => simp
  | cons b l ih =>
    simp only [List.map_cons, List.sum_cons]
    rw [lintegral_add_left (h b (by simp)), ih fun b hb => h b (by simp [hb])]

theorem pexp_measurable (hT : Measurable (fun q : Θ × Z × Θ => T q.1 q.2.1 q.2.2)) (hrm : Measurable r) (hpm : Measurable p)
    (sched : List (Fin n × List (Fin n))) (F : (Fin n → Θ × N) → ℝ≥0∞) (hF : Measurable F) : Measurable (pexp ν μ T r p sched F) := by
  induction sched with
  | nil => exact hF
  | cons a rest ih =>
    exact (list_sum_measurable _ _ fun j _ => afterMove_measurable hT hrm hpm a.1 j _ ih).div_const _

theorem pexp_invariant (hb : ∀ c, Balanced lam ν (T c) r) (hr : ∀ z, r z ≠ 0 ∧ r z ≠ ⊤) (hT : Measurable (fun q : Θ × Z × Θ => T q.1 q.2.1 q.2.2))
    (hrm : Measurable r) (hpm : Measurable p) (hp : ∀ s, p s ≠ ⊤) (sched : List (Fin n × List (Fin n)))
    (hs : ∀ a ∈ sched, a.2 ≠ [] ∧ a.1 ∉ a.2) (F : (Fin n → Θ × N) → ℝ≥0∞) (hF : Measurable F) :
    ∫⁻ s, (∏ k, p (s k)) * pexp ν μ T r p sched F s ∂(Measure.pi fun _ => lam.prod μ)
      = ∫⁻ s, (∏ k, p (s k)) * F s ∂(Measure.pi fun _ => lam.prod μ) := by
  induction sched with
  | nil => rfl
  | cons a rest ih =>
    obtain ⟨i, js⟩ := a
    have hP : Measurable (fun s : Fin n → Θ × N => ∏ k, p (s k)) :=
      Finset.measurable_prod _ fun k _ => hpm.comp (measurable_pi_apply k)
    have hR := pexp_measurable (ν := ν) (μ := μ) hT hrm hpm rest F hF
    obtain ⟨h1, h2⟩ := hs (i, js) (by simp)
    have hlen : (js.length : ℝ≥0∞) ≠ 0 := by simpa using h1
    have e : ∀ s : Fin n → Θ × N, (∏ k, p (s k)) * pexp ν μ T r p ((i, js) :: rest) F s
        = (js.map (fun j => (∏ k, p (s k)) * afterMove ν μ T r p i j (pexp ν μ T r p rest F) s)).sum * (js.length : ℝ≥0∞)⁻¹ := by
      intro s
      simp only [pexp]
      rw [div_eq_mul_inv, ← mul_assoc, List.sum_map_mul_left]
    simp only [e]
    rw [lintegral_mul_const' _ _ (ENNReal.inv_ne_top.2 hlen),
      lintegral_list_sum _ js (fun j s => (∏ k, p (s k)) * afterMove ν μ T r p i j (pexp ν μ T r p rest F) s)
        fun j _ => hP.mul (afterMove_measurable hT hrm hpm i j _ hR)]
    have : ∀ j ∈ js, ∫⁻ s, (∏ k, p (s k)) * afterMove ν μ T r p i j (pexp ν μ T r p rest F) s ∂(Measure.pi fun _ => lam.prod μ)
        = ∫⁻ s, (∏ k, p (s k)) * F s ∂(Measure.pi fun _ => lam.prod μ) := by
      intro j hj
      rw [move_invariant hb hr hT hrm hpm hp i j (fun h => h2 (h ▸ hj)) _ hR, ih fun a ha => hs a (by simp [ha])]
    rw [List.map_congr_left this, List.map_const', List.sum_replicate, nsmul_eq_mul, mul_right_comm,
      ENNReal.mul_inv_cancel hlen (by simp), one_mul]

theorem lintegral_fin_prod {α : Type} [MeasurableSpace α] (m : Measure α) [SigmaFinite m] {n : Nat} (f : Fin n → α → ℝ≥0∞) (hf : ∀ k, Measurable (f k)) :
    ∫⁻ x, ∏ k, f k (x k) ∂(Measure.pi fun _ : Fin n => m) = ∏ k, ∫⁻ a, f k a ∂m := by
  induction n with
  | zero => simp
  | succ n ih =>
    have hmp := (measurePreserving_piFinSuccAbove (fun _ : Fin (n + 1) => m) 0).symm
    have hg : Measurable (fun x : Fin (n + 1) → α => ∏ k, f k (x k)) :=
      Finset.measurable_prod _ fun k _ => (hf k).comp (measurable_pi_apply k)
    have hg' : Measurable (fun a : α × (Fin n → α) => ∏ k, f k ((MeasurableEquiv.piFinSuccAbove (fun _ : Fin (n + 1) => α) 0).symm a k)) :=
      hg.comp hmp.measurable
    rw [← hmp.lintegral_comp hg, lintegral_prod _ hg'.aemeasurable, Fin.prod_univ_succ]
    have e : ∀ (a : α) (x : Fin n → α), ∏ k, f k (((MeasurableEquiv.piFinSuccAbove (fun _ : Fin (n + 1) => α) 0).symm (a, x)) k)
        = f 0 a * ∏ k, f (Fin.succ k) (x k) := by
      intro a x
      rw [Fin.prod_univ_succ]
      rfl
    have hm : Measurable (fun x : Fin n → α => ∏ k, f (Fin.succ k) (x k)) :=
      Finset.measurable_prod _ fun k _ => (hf _).comp (measurable_pi_apply k)
    simp only [e]
    have e2 : ∀ a, ∫⁻ x, f 0 a * ∏ k, f (Fin.succ k) (x k) ∂(Measure.pi fun _ : Fin n => m) = f 0 a * ∏ k : Fin n, ∫⁻ a, f (Fin.succ k) a ∂m := by
      intro a
      rw [lintegral_const_mul _ hm, ih (fun k => f k.succ) fun k => hf _]
    refine (lintegral_congr e2).trans ?_
    rw [lintegral_mul_const _ (hf 0)]

/-- Integrating out the noise of every walker. -/
theorem marginal_noise (hpm : Measurable p) (F : (Fin n → Θ) → ℝ≥0∞) (hF : Measurable F) :
    ∫⁻ s, (∏ k, p (s k)) * F (fun k => (s k).1) ∂(Measure.pi fun _ : Fin n => lam.prod μ)
      = ∫⁻ θ, (∏ k, ∫⁻ κ, p (θ k, κ) ∂μ) * F θ ∂(Measure.pi fun _ : Fin n => lam) := by
  have hmp := measurePreserving_arrowProdEquivProdArrow Θ N (Fin n) (fun _ => lam) (fun _ => μ)
  have hg : Measurable (fun q : (Fin n → Θ) × (Fin n → N) => (∏ k, p (q.1 k, q.2 k)) * F q.1) := by
    refine Measurable.mul (Finset.measurable_prod _ fun k _ => hpm.comp ?_) (hF.comp measurable_fst)
    exact ((measurable_pi_apply k).comp measurable_fst).prodMk ((measurable_pi_apply k).comp measurable_snd)
  have h1 := hmp.lintegral_comp hg
  change ∫⁻ s, (∏ k, p (s k)) * F (fun k => (s k).1) ∂(Measure.pi fun _ : Fin n => lam.prod μ) = _ at h1
  rw [h1, lintegral_prod _ hg.aemeasurable]
  refine lintegral_congr fun θ => ?_
  simp only
  have hm : Measurable (fun y : Fin n → N => ∏ k, p (θ k, y k)) :=
    Finset.measurable_prod _ fun k _ => hpm.comp (measurable_const.prodMk (measurable_pi_apply k))
  rw [lintegral_mul_const _ hm]
  rw [lintegral_fin_prod μ (fun k κ => p (θ k, κ)) fun k => hpm.comp (measurable_const.prodMk measurable_id)]
end

/-! ### The model of the sampler takes these steps -/

section
variable {K : Type} {d n : Nat}

/-- Finite or minus infinity. -/
def Plain (v : XF) : Prop := v.isFinite ∨ v = .ninf

theorem densityOf_ne_top (v : XF) : densityOf v ≠ ⊤ := by cases v <;> simp [densityOf]

theorem accepts_iff {new old : XF} (hn : Plain new) (ho : Plain old) {z u : ℝ} (hz : 0 < z) (hu : 0 ≤ u) :
    accepts (factor d z) new old u ↔ ENNReal.ofReal u * densityOf old < ratio d z * densityOf new := by
  have hf : factor d z = .fin (((d : ℝ) - 1) * Real.log z) := by simp [factor, XF.log, hz]
  have hr : ratio d z ≠ 0 := by simp [ratio, Real.exp_pos]
  unfold accepts
  rw [hf]
  rcases hu.eq_or_lt with rfl | hu'
  · have hl : XF.log (.fin 0) = .ninf := by simp [XF.log]
    rw [hl]
    rcases hn with hn | rfl
    · obtain ⟨x, rfl⟩ := (XF.isFinite_iff _).1 hn
      rcases ho with ho | rfl
      · obtain ⟨y, rfl⟩ := (XF.isFinite_iff _).1 ho
        simp [densityOf, Real.exp_pos, hr, pos_iff_ne_zero]
      · simp [densityOf, Real.exp_pos, hr, pos_iff_ne_zero]
        trivial
    · rcases ho with ho | rfl
      · obtain ⟨y, rfl⟩ := (XF.isFinite_iff _).1 ho
        simp [densityOf]
        exact fun h => h
      · simp [densityOf]
        exact fun h => h
  · have hl : XF.log (.fin u) = .fin (Real.log u) := by simp [XF.log, hu']
    rw [hl]
    rcases hn with hn | rfl
    · obtain ⟨x, rfl⟩ := (XF.isFinite_iff _).1 hn
      rcases ho with ho | rfl
      · obtain ⟨y, rfl⟩ := (XF.isFinite_iff _).1 ho
        simp only [densityOf, ratio]
        rw [← ENNReal.ofReal_mul hu, ← ENNReal.ofReal_mul (Real.exp_pos _).le, ENNReal.ofReal_lt_ofReal_iff (by positivity),
          ← Real.exp_add]
        change Real.log u < ((d : ℝ) - 1) * Real.log z + x + -y ↔ _
        rw [← Real.exp_lt_exp, Real.exp_log hu', ← sub_eq_add_neg, Real.exp_sub, lt_div_iff₀ (Real.exp_pos _)]
      · simp [densityOf, Real.exp_pos, hr, pos_iff_ne_zero]
        trivial
    · rcases ho with ho | rfl
      · obtain ⟨y, rfl⟩ := (XF.isFinite_iff _).1 ho
        simp [densityOf]
        exact fun h => h
      · simp [densityOf]
        exact fun h => h

/-- A context reached by evaluating the posterior. -/
def Reached (c c' : Ctx.Ctx K) : Prop :=
  ∃ hist : List (List XF), (∀ xs ∈ hist, xs.length = (parameterFit c.pm).length) ∧
    c' = { c with pm := hist.foldl (fun p xs => (evalAt p xs).1) c.pm }

theorem reached_parameterFit {config : Config} (hc : config.keys.Nodup) {c c' : Ctx.Ctx K} (hr : Inv config c.pm) (h : Reached c c') :
    Inv config c'.pm ∧ parameterFit c'.pm = parameterFit c.pm := by
  obtain ⟨hist, -, rfl⟩ := h
  change Inv config (hist.foldl (fun p xs => (evalAt p xs).1) c.pm) ∧ parameterFit (hist.foldl (fun p xs => (evalAt p xs).1) c.pm) = _
  generalize c.pm = p at hr
  induction hist generalizing p with
  | nil => exact ⟨hr, rfl⟩
  | cons xs hist ih =>
    rw [List.foldl_cons]
    obtain ⟨h1, h2⟩ := ih (evalAt p xs).1 (setParameter_inv _ _ hr)
    refine ⟨h1, h2.trans ?_⟩
    rw [evalAt_eq hr hc]
    rfl

theorem reached_posterior (config : Config) (hc : config.keys.Nodup) (o : Settings) {c c' : Ctx.Ctx K} (hr : Reachable config c.pm)
    (hd : (parameterFit c.pm).length = d) (h : Reached c c') (x : Fin d → ℝ) (keys : Nat → K) :
    (Ctx.logPosterior o.sig o.order keys c' (.dict ((parameterFit c'.pm).zip ((List.ofFn x).map XF.fin))) o.batch o.repeats).2
        = posterior o c x keys ∧
      Reached c (Ctx.logPosterior o.sig o.order keys c' (.dict ((parameterFit c'.pm).zip ((List.ofFn x).map XF.fin))) o.batch o.repeats).1 := by
  obtain ⟨hist, hl, rfl⟩ := h
  constructor
  · have := Ctx.C40_no_memory config hc o.sig o.order keys c hr o.batch o.repeats hist ((List.ofFn x).map XF.fin) (by simp [hd]) hl
    have hfold : ∀ (hist : List (List XF)) (c : Ctx.Ctx K),
        hist.foldl (fun c xs => (Ctx.logPosterior o.sig o.order keys c (.dict ((parameterFit c.pm).zip xs)) o.batch o.repeats).1) c =
          { c with pm := hist.foldl (fun p xs => (evalAt p xs).1) c.pm } := by
      intro hist
      induction hist with
      | nil => intro c; rfl
      | cons xs hist ih => intro c; rw [List.foldl_cons, ih, (Ctx.C40_stores_parameters o.sig o.order keys c _ o.batch o.repeats).1]; rfl
    simp only [hfold] at this
    exact congrArg Prod.snd this
  · rw [(Ctx.C40_stores_parameters o.sig o.order keys _ _ o.batch o.repeats).1]
    refine ⟨hist ++ [(List.ofFn x).map XF.fin], ?_, ?_⟩
    · intro xs hx
      rcases List.mem_append.1 hx with hx | hx
      · exact hl xs hx
      · rw [List.mem_singleton.1 hx]
        simp [hd]
    · rw [List.foldl_append]
      rfl

/-- A proposal, as an affine map. -/
theorem propose_eq (z : ℝ) (c x : Fin d → ℝ) : propose z c x = c - z • (c - x) := by
  funext i
  simp [propose, mul_comm]

theorem stretch_pos {a w : ℝ} (ha : 1 < a) (hw : 0 ≤ w) : 0 < stretch a w := by
  have : 0 < (a - 1) * w + 1 := by nlinarith
  unfold stretch; positivity

theorem walkersAt_update (o : Settings) (c : Ctx.Ctx K) (s : Fin n → (Fin d → ℝ) × (Nat → K)) (i : Fin n) (q : (Fin d → ℝ) × (Nat → K)) :
    walkersAt o c (Function.update s i q) = Function.update (walkersAt o c s) i ⟨q.1, q.2, valueOf (posterior o c q.1 q.2)⟩ := by
  funext k
  by_cases hk : k = i
  · subst hk; simp [walkersAt]
  · simp [walkersAt, hk]

/-- A move of the model. -/
theorem move_eq (config : Config) (hc : config.keys.Nodup) (o : Settings) (ha : 1 < o.scale) {c c' : Ctx.Ctx K} (hr : Reachable config c.pm)
    (hd : (parameterFit c.pm).length = d) (h : Reached c c')
    (hpost : ∀ (x : Fin d → ℝ) keys, ∃ v lp, posterior o c x keys = .ok (v, lp) ∧ Plain v)
    (i j : Fin n) (w : ℝ) (hw : 0 ≤ w) (keys : Nat → K) (u : ℝ) (hu : 0 ≤ u) (s : Fin n → (Fin d → ℝ) × (Nat → K)) :
    ∃ c'', Reached c c'' ∧ move o i j w keys u (c', walkersAt o c s)
      = ((c'', walkersAt o c (pmove (fun b w x => b - stretch o.scale w • (b - x)) (fun w => ratio d (stretch o.scale w)) (density o c) i j w keys u s)),
          .ok ()) := by
  classical
  have hz := stretch_pos ha hw
  set z := stretch o.scale w with hzdef
  set y := propose z (s j).1 (s i).1 with hy
  obtain ⟨v, lp, hv, hpv⟩ := hpost y keys
  obtain ⟨v0, lp0, hv0, hpv0⟩ := hpost (s i).1 (s i).2
  obtain ⟨h1, h2⟩ := reached_posterior config hc o hr hd h y keys
  have hev : evaluate o c' y keys = ((Ctx.logPosterior o.sig o.order keys c' (.dict ((parameterFit c'.pm).zip ((List.ofFn y).map XF.fin)))
      o.batch o.repeats).1, .ok v) := by
    unfold evaluate
    rw [hv] at h1
    generalize Ctx.logPosterior o.sig o.order keys c' (.dict ((parameterFit c'.pm).zip ((List.ofFn y).map XF.fin))) o.batch o.repeats = t at h1
    obtain ⟨t1, t2⟩ := t
    simp only at h1
    subst h1
    have : ¬ v.isNaN := by rcases hpv with h | rfl <;> [skip; simp]; cases v <;> simp_all
    simp [this]
  generalize (Ctx.logPosterior o.sig o.order keys c' (.dict ((parameterFit c'.pm).zip ((List.ofFn y).map XF.fin)))
    o.batch o.repeats).1 = c1 at h2 hev
  refine ⟨c1, h2, ?_⟩
  have hmove : move o i j w keys u (c', walkersAt o c s) = ((c1, if accepts (factor d z) v (walkersAt o c s i).logp u then
      Function.update (walkersAt o c s) i ⟨y, keys, v⟩ else walkersAt o c s), .ok ()) := by
    unfold move
    have e1 : (walkersAt o c s j).pos = (s j).1 := rfl
    have e2 : (walkersAt o c s i).pos = (s i).1 := rfl
    simp only [e1, e2, ← hzdef, ← hy, hev]
  rw [hmove]
  have hlogp : (walkersAt o c s i).logp = v0 := by simp [walkersAt, hv0, valueOf]
  have hacc := accepts_iff (d := d) hpv hpv0 hz hu
  have hd0 : density o c (s i) = densityOf v0 := by simp [density, hv0, valueOf]
  have hd1 : density o c (y, keys) = densityOf v := by simp [density, hv, valueOf]
  have hnx : nxt (fun w x => (s j).1 - stretch o.scale w • ((s j).1 - x)) (fun w => ratio d (stretch o.scale w)) (density o c) w keys u (s i)
      = if accepts (factor d z) v v0 u then (y, keys) else s i := by
    unfold nxt
    simp only [← hzdef, ← propose_eq, ← hy, hd0, hd1, hacc]
  unfold pmove
  rw [hlogp, hnx]
  split
  · rw [walkersAt_update]
    simp [hv, valueOf]
  · rw [Function.update_eq_self]

theorem unif_congr {f g : ℝ → ℝ≥0∞} (h : ∀ u, 0 ≤ u → u < 1 → f u = g u) : ∫⁻ u, f u ∂Randgen.unif = ∫⁻ u, g u ∂Randgen.unif := by
  unfold Randgen.unif
  exact setLIntegral_congr_fun measurableSet_Ico fun u hu => h u hu.1 hu.2

/-- The expectations of the model. -/
theorem expectAfter_eq [MeasurableSpace K] (config : Config) (hc : config.keys.Nodup) (o : Settings) (ha : 1 < o.scale) {c : Ctx.Ctx K}
    (hr : Reachable config c.pm) (hd : (parameterFit c.pm).length = d)
    (hpost : ∀ (x : Fin d → ℝ) keys, ∃ v lp, posterior o c x keys = .ok (v, lp) ∧ Plain v) (μ : Measure (Nat → K))
    (F : (Fin n → Walker d K) → ℝ≥0∞) (sched : Schedule n) (c' : Ctx.Ctx K) (h : Reached c c') (s : Fin n → (Fin d → ℝ) × (Nat → K)) :
    expectAfter o μ F sched (c', walkersAt o c s)
      = pexp Randgen.unif μ (fun b w x => b - stretch o.scale w • (b - x)) (fun w => ratio d (stretch o.scale w)) (density o c) sched
          (fun s => F (walkersAt o c s)) s := by
  induction sched generalizing c' s with
  | nil => rfl
  | cons a rest ih =>
    obtain ⟨i, js⟩ := a
    simp only [expectAfter, pexp]
    congr 2
    refine List.map_congr_left fun j _ => ?_
    unfold afterMove
    refine unif_congr fun w hw _ => lintegral_congr fun keys => unif_congr fun u hu _ => ?_
    obtain ⟨c'', h1, h2⟩ := move_eq config hc o ha hr hd h hpost i j w hw keys u hu s
    rw [h2]
    exact ih c'' h1 _

theorem proposal_measurable (a : ℝ) :
    Measurable (fun q : (Fin d → ℝ) × ℝ × (Fin d → ℝ) => q.1 - stretch a q.2.1 • (q.1 - q.2.2)) := by
  have : Measurable (fun q : (Fin d → ℝ) × ℝ × (Fin d → ℝ) => stretch a q.2.1) := (stretch_measurable a).comp (by fun_prop)
  fun_prop

end

end Verif.Walk
