/-
Lemmas for C117: mean and mean square deviation of a weighted sum of independent decisions.
-/
import Verif.Spec.Thin
import Verif.Props.Limit
import Verif.Lemmas.RandgenLaw

namespace Verif.Llh
open Verif Comp MeasureTheory ProbabilityTheory

section
variable {Ω : Type} [MeasurableSpace Ω] {P : Measure Ω} [IsProbabilityMeasure P] {n : Nat} {W : Nat → ℝ} {A : Nat → Ω → ℝ}

theorem Decisions.memLp (h : Decisions P n W A) {k : Nat} (hk : k < n) (c : ℝ) : MemLp (fun ω => c * A k ω) 2 P := by
  refine MemLp.const_mul ?_ c
  refine MemLp.of_bound (h.meas k hk).aestronglyMeasurable 1 (.of_forall fun ω => ?_)
  rcases h.zero_or_one k hk ω with e | e <;> simp [e]

theorem Decisions.mean (h : Decisions P n W A) (c : Nat → ℝ) :
    Integrable (fun ω => ∑ k ∈ Finset.range n, c k * A k ω) P ∧
      ∫ ω, ∑ k ∈ Finset.range n, c k * A k ω ∂P = ∑ k ∈ Finset.range n, c k * W k := by
  have hi : ∀ k ∈ Finset.range n, Integrable (fun ω => c k * A k ω) P := fun k hk =>
    (h.memLp (Finset.mem_range.1 hk) (c k)).integrable (by norm_num)
  refine ⟨integrable_finsetSum _ hi, ?_⟩
  rw [integral_finsetSum _ hi]
  refine Finset.sum_congr rfl fun k hk => ?_
  rw [integral_const_mul, h.prob k (Finset.mem_range.1 hk)]

theorem Decisions.deviation (h : Decisions P n W A) (c : Nat → ℝ) (m : ℝ) :
    ∫ ω, (∑ k ∈ Finset.range n, c k * A k ω - m) ^ 2 ∂P
      = (∑ k ∈ Finset.range n, c k * W k - m) ^ 2 + ∑ k ∈ Finset.range n, c k ^ 2 * (W k * (1 - W k)) := by
  have hm2 : ∀ k ∈ Finset.range n, MemLp (fun ω => c k * A k ω) 2 P := fun k hk => h.memLp (Finset.mem_range.1 hk) (c k)
  have hY : MemLp (fun ω => ∑ k ∈ Finset.range n, c k * A k ω) 2 P := memLp_finsetSum _ hm2
  have hv1 : ∀ k ∈ Finset.range n, Var[fun ω => c k * A k ω; P] = c k ^ 2 * (W k * (1 - W k)) := by
    intro k hk
    have hk' := Finset.mem_range.1 hk
    have hA : MemLp (A k) 2 P := by simpa using h.memLp hk' 1
    rw [variance_const_mul, variance_eq_sub hA]
    have hsq : A k ^ 2 = A k := by
      funext ω
      rcases h.zero_or_one k hk' ω with e | e <;> simp [e]
    rw [hsq, h.prob k hk']
    ring
  have hvar : Var[fun ω => ∑ k ∈ Finset.range n, c k * A k ω; P] = ∑ k ∈ Finset.range n, c k ^ 2 * (W k * (1 - W k)) := by
    have e := IndepFun.variance_sum (s := Finset.range n) (X := fun k ω => c k * A k ω) (μ := P) hm2 (by
      intro i hi j hj hij
      exact (h.indep i (by simpa using hi) j (by simpa using hj) hij).comp (measurable_const_mul (c i)) (measurable_const_mul (c j)))
    rw [Finset.sum_congr rfl hv1] at e
    rw [← e]
    congr 1
    funext ω
    simp
  have hmean := (h.mean c).2
  have h2 := variance_eq_sub hY
  have hint := (h.mean c).1
  have hint2 : Integrable (fun ω => (∑ k ∈ Finset.range n, c k * A k ω) ^ 2) P := hY.integrable_sq
  have e3 : ∫ ω, (∑ k ∈ Finset.range n, c k * A k ω - m) ^ 2 ∂P
      = ∫ ω, (∑ k ∈ Finset.range n, c k * A k ω) ^ 2 ∂P - 2 * m * ∫ ω, ∑ k ∈ Finset.range n, c k * A k ω ∂P + m ^ 2 := by
    have : ∀ ω, (∑ k ∈ Finset.range n, c k * A k ω - m) ^ 2
        = (∑ k ∈ Finset.range n, c k * A k ω) ^ 2 - 2 * m * (∑ k ∈ Finset.range n, c k * A k ω) + m ^ 2 := fun ω => by ring
    have hc : Integrable (fun ω => 2 * m * ∑ k ∈ Finset.range n, c k * A k ω) P := hint.const_mul _
    have hs : Integrable (fun ω => (∑ k ∈ Finset.range n, c k * A k ω) ^ 2 - 2 * m * ∑ k ∈ Finset.range n, c k * A k ω) P := hint2.sub hc
    simp only [this]
    rw [integral_add hs (integrable_const _), integral_sub hint2 hc, integral_const_mul]
    simp
  rw [hvar, hmean] at h2
  have h4 : ∫ ω, (∑ k ∈ Finset.range n, c k * A k ω) ^ 2 ∂P = P[(fun ω => ∑ k ∈ Finset.range n, c k * A k ω) ^ 2] := rfl
  rw [e3, hmean, h4]
  linarith

end

/-- Uniform numbers make the decisions. -/
theorem decisions_of_uniform {Ω : Type} [MeasurableSpace Ω] {P : Measure Ω} {n : Nat} {W : Nat → ℝ}
    (hW : ∀ k < n, 0 ≤ W k ∧ W k ≤ 1) {U : Nat → Ω → ℝ} (hU : ∀ k < n, Measurable (U k)) (hl : ∀ k < n, P.map (U k) = Randgen.unif)
    (hi : ∀ i < n, ∀ j < n, i ≠ j → IndepFun (U i) (U j) P) : Decisions P n W (fun k ω => acceptBelow (W k) (U k ω)) := by
  have hm : ∀ w, Measurable (acceptBelow w) := fun w => by
    classical
    unfold acceptBelow
    refine Measurable.ite ?_ measurable_const measurable_const
    exact measurableSet_Iio
  refine ⟨fun k hk => (hm _).comp (hU k hk), fun k _ ω => ?_, fun k hk => ?_, fun i hi' j hj hij => (hi i hi' j hj hij).comp (hm _) (hm _)⟩
  · unfold acceptBelow
    split <;> simp
  · have e : ∫ ω, acceptBelow (W k) (U k ω) ∂P = ∫ u, acceptBelow (W k) u ∂(P.map (U k)) :=
      (integral_map (hU k hk).aemeasurable (hm _).aestronglyMeasurable).symm
    rw [e, hl k hk]
    have : acceptBelow (W k) = Set.indicator (Set.Iio (W k)) 1 := by
      funext u
      simp [acceptBelow, Set.indicator]
    rw [this, integral_indicator_one measurableSet_Iio, measureReal_def, Randgen.unif_lt _ (hW k hk).1 (hW k hk).2,
      ENNReal.toReal_ofReal (hW k hk).1]

open Classical in
/-- The share of an event in a bin: `rate / n` if it lies there. -/
noncomputable def share (bins : Bins ℝ) (b : Nat × Nat) (rate : ℝ) (n : Nat) (x : Fin bins.dims → ℝ) : ℝ :=
  if EventIn bins b.1 b.2 (posRow x) then rate / n else 0

theorem share_mul (bins : Bins ℝ) (b : Nat × Nat) (rate : ℝ) (n : Nat) (X : Nat → Fin bins.dims → ℝ) (A : Nat → ℝ) :
    (∑ k ∈ Finset.range n, rate * weightIn bins b (X k, A k)) / n = ∑ k ∈ Finset.range n, share bins b rate n (X k) * A k := by
  rw [Finset.sum_div]
  refine Finset.sum_congr rfl fun k _ => ?_
  unfold share weightIn
  split
  · simp only
    ring
  · simp

end Verif.Llh
