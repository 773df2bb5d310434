/-
Helper lemmas: the law of a two-half-normal draw.
-/
import Mathlib.Probability.Distributions.Gaussian.Real
import Mathlib.MeasureTheory.Measure.Prod
import Verif.Lemmas.RandgenLaw

namespace Verif.Randgen
open Verif MeasureTheory ProbabilityTheory

/-- The log density at a number for positive sigmas. -/
noncomputable def ell (mu sp sn x : ℝ) : ℝ :=
  (if x < mu then -(x - mu) ^ 2 / sn ^ 2 / 2 else -(x - mu) ^ 2 / sp ^ 2 / 2)
    + Real.log (2 / (sp + sn) / √(2 * Real.pi))

theorem thnLogpdf_ok (mu sp sn x : ℝ) (hp : 0 < sp) (hn : 0 < sn) : thnLogpdf x mu sp sn = .ok (ell mu sp sn x) := by
  unfold thnLogpdf ell
  rw [if_pos ⟨hp, hn⟩]

theorem ell_continuous (mu sp sn : ℝ) : Continuous (ell mu sp sn) := by
  unfold ell
  refine Continuous.add ?_ continuous_const
  refine Continuous.if ?_ (by fun_prop) (by fun_prop)
  intro a ha
  have : a = mu := by
    have h1 : {x : ℝ | x < mu} = Set.Iio mu := rfl
    rw [h1, frontier_Iio] at ha
    exact ha
  subst this
  simp

theorem ell_measurable (mu sp sn : ℝ) : Measurable (ell mu sp sn) := (ell_continuous mu sp sn).measurable

theorem ell_lt_max (mu sp sn x : ℝ) (hp : 0 < sp) (hn : 0 < sn) (hx : x ≠ mu) : ell mu sp sn x < ell mu sp sn mu := by
  unfold ell
  rw [if_neg (lt_irrefl mu), sub_self]
  have hsq : 0 < (x - mu) ^ 2 := by
    have := sub_ne_zero.2 hx
    positivity
  have key : ∀ s : ℝ, 0 < s → -(x - mu) ^ 2 / s ^ 2 / 2 < 0 := by
    intro s hs
    have : 0 < (x - mu) ^ 2 / s ^ 2 / 2 := by positivity
    have e : -(x - mu) ^ 2 / s ^ 2 / 2 = -((x - mu) ^ 2 / s ^ 2 / 2) := by ring
    rw [e]
    linarith
  split
  · have := key sn hn
    simp only [ne_eq, OfNat.ofNat_ne_zero, not_false_eq_true, zero_pow, neg_zero, zero_div, zero_add]
    linarith
  · have := key sp hp
    simp only [ne_eq, OfNat.ofNat_ne_zero, not_false_eq_true, zero_pow, neg_zero, zero_div, zero_add]
    linarith

/-- The variance `c ^ 2`. -/
noncomputable def sq (c : ℝ) : NNReal := .mk (c ^ 2) (sq_nonneg c)

theorem coe_sq (c : ℝ) : ((sq c : NNReal) : ℝ) = c ^ 2 := rfl

theorem sq_ne_zero' {c : ℝ} (h : c ≠ 0) : sq c ≠ 0 := by
  intro he
  have := congrArg NNReal.toReal he
  rw [coe_sq, NNReal.coe_zero] at this
  exact h (by simpa using this)

/-- The standard normal law. -/
noncomputable abbrev G : Measure ℝ := gaussianReal 0 1

theorem map_affine (mu c : ℝ) : G.map (fun z => mu + c * z) = gaussianReal mu (sq c) := by
  have h : (fun z : ℝ => mu + c * z) = (fun z => mu + z) ∘ (fun z => c * z) := rfl
  rw [h, ← Measure.map_map (by fun_prop) (by fun_prop), gaussianReal_map_const_mul, gaussianReal_map_const_add]
  congr 1
  · simp
  · ext
    rw [mul_one]
    rfl

theorem map_neg_G : G.map (fun z => -z) = G := by
  rw [gaussianReal_map_neg, neg_zero]

/-- Half of a line seen from `mu` in the direction of `c`. -/
def beyond (mu c : ℝ) : Set ℝ := {x | 0 < (x - mu) / c}

theorem beyond_measurable (mu c : ℝ) : MeasurableSet (beyond mu c) :=
  measurableSet_lt measurable_const (by fun_prop)

theorem abs_law (mu c : ℝ) (hc : c ≠ 0) (A : Set ℝ) (hA : MeasurableSet A) :
    G {z | mu + |z| * c ∈ A} = 2 * gaussianReal mu (sq c) (A ∩ beyond mu c) := by
  have hpos : G {z : ℝ | 0 < z ∧ mu + c * z ∈ A} = gaussianReal mu (sq c) (A ∩ beyond mu c) := by
    rw [← map_affine mu c, Measure.map_apply (by fun_prop) (hA.inter (beyond_measurable mu c))]
    congr 1
    ext z
    simp only [Set.mem_setOf_eq, Set.mem_preimage, Set.mem_inter_iff, beyond, add_sub_cancel_left]
    rw [mul_div_cancel_left₀ z hc]
    exact and_comm
  have hms : MeasurableSet {z : ℝ | 0 < z ∧ mu + c * z ∈ A} :=
    (measurableSet_lt measurable_const measurable_id).inter
      ((by fun_prop : Measurable (fun z : ℝ => mu + c * z)) hA)
  have hneg : G {z : ℝ | z < 0 ∧ mu - c * z ∈ A} = gaussianReal mu (sq c) (A ∩ beyond mu c) := by
    rw [← hpos]
    conv_rhs => rw [← map_neg_G, Measure.map_apply (by fun_prop) hms]
    congr 1
    ext z
    simp only [Set.mem_setOf_eq, Set.mem_preimage, Left.neg_pos_iff, mul_neg, ← sub_eq_add_neg]
  have hmn : MeasurableSet {z : ℝ | z < 0 ∧ mu - c * z ∈ A} :=
    (measurableSet_lt measurable_id measurable_const).inter
      ((by fun_prop : Measurable (fun z : ℝ => mu - c * z)) hA)
  have hsplit : {z : ℝ | mu + |z| * c ∈ A} =ᵐ[G] ({z : ℝ | 0 < z ∧ mu + c * z ∈ A} ∪ {z : ℝ | z < 0 ∧ mu - c * z ∈ A} : Set ℝ) := by
    haveI := noAtoms_gaussianReal (μ := 0) (v := 1) one_ne_zero
    have h0 : ∀ᵐ z ∂G, z ≠ 0 := by
      rw [ae_iff]
      simp
    filter_upwards [h0] with z hz
    apply propext
    change mu + |z| * c ∈ A ↔ (0 < z ∧ mu + c * z ∈ A) ∨ (z < 0 ∧ mu - c * z ∈ A)
    rcases lt_or_gt_of_ne hz with h | h
    · rw [abs_of_neg h]
      have e : mu + -z * c = mu - c * z := by ring
      rw [e]
      constructor
      · intro hm
        exact Or.inr ⟨h, hm⟩
      · rintro (⟨h', -⟩ | ⟨-, hm⟩)
        · exact absurd h' (not_lt.2 h.le)
        · exact hm
    · rw [abs_of_pos h, mul_comm z c]
      constructor
      · intro hm
        exact Or.inl ⟨h, hm⟩
      · rintro (⟨-, hm⟩ | ⟨h', -⟩)
        · exact hm
        · exact absurd h' (not_lt.2 h.le)
  rw [measure_congr hsplit, measure_union _ hmn, hpos, hneg, two_mul]
  rw [Set.disjoint_left]
  rintro z ⟨h1, -⟩ ⟨h2, -⟩
  linarith

theorem thnValue_pos {mu sp sn u z : ℝ} (h : u < sp / (sp + sn)) : thnValue mu sp sn u z = mu + |z| * sp := by
  simp only [thnValue, if_pos h]
  ring

theorem thnValue_neg {mu sp sn u z : ℝ} (h : ¬ u < sp / (sp + sn)) : thnValue mu sp sn u z = mu + |z| * (-sn) := by
  simp only [thnValue, if_neg h]
  ring

theorem thnValue_measurable (mu sp sn : ℝ) : Measurable (fun w : ℝ × ℝ => thnValue mu sp sn w.1 w.2) := by
  have h : (fun w : ℝ × ℝ => thnValue mu sp sn w.1 w.2)
      = fun w : ℝ × ℝ => if w.1 < sp / (sp + sn) then mu + |w.2| * sp else mu + |w.2| * (-sn) := by
    funext w
    split
    · rename_i h
      exact thnValue_pos h
    · rename_i h
      exact thnValue_neg h
  rw [h]
  exact Measurable.ite (measurableSet_lt measurable_fst measurable_const) (by fun_prop) (by fun_prop)

theorem density_half (mu c other x : ℝ) (hc : 0 < c) (ho : 0 < other) :
    ENNReal.ofReal (c / (c + other)) * (2 * gaussianPDF mu (sq c) x)
      = ENNReal.ofReal (Real.exp (-(x - mu) ^ 2 / c ^ 2 / 2 + Real.log (2 / (c + other) / √(2 * Real.pi)))) := by
  have h2 : (2 : ENNReal) = ENNReal.ofReal 2 := by simp
  rw [gaussianPDF, h2, ← ENNReal.ofReal_mul (by norm_num), ← ENNReal.ofReal_mul (by positivity)]
  congr 1
  have hpi : 0 < √(2 * Real.pi) := Real.sqrt_pos.2 (by positivity)
  rw [Real.exp_add, Real.exp_log (by positivity), gaussianPDFReal]
  have hs : √(2 * Real.pi * (sq c : ℝ)) = √(2 * Real.pi) * c := by
    rw [show ((sq c : NNReal) : ℝ) = c ^ 2 from rfl, Real.sqrt_mul (by positivity), Real.sqrt_sq hc.le]
  rw [hs, show ((sq c : NNReal) : ℝ) = c ^ 2 from rfl]
  have he : -(x - mu) ^ 2 / (2 * c ^ 2) = -(x - mu) ^ 2 / c ^ 2 / 2 := by
    rw [div_div, mul_comm]
  rw [he]
  have hco : c + other ≠ 0 := by positivity
  field_simp

/-- The law of a two-half-normal draw from an independent uniform and normal. -/
theorem thn_law (mu sp sn : ℝ) (hp : 0 < sp) (hn : 0 < sn) :
    (unif.prod G).map (fun w => thnValue mu sp sn w.1 w.2)
      = volume.withDensity (fun x => ENNReal.ofReal (Real.exp (ell mu sp sn x))) := by
  ext A hA
  rw [Measure.map_apply (thnValue_measurable mu sp sn) hA, withDensity_apply _ hA]
  set P := sp / (sp + sn) with hP
  have hP0 : 0 ≤ P := by positivity
  have hP1 : P ≤ 1 := by
    rw [hP, div_le_one (by positivity)]
    linarith
  have hset : (fun w : ℝ × ℝ => thnValue mu sp sn w.1 w.2) ⁻¹' A
      = (Set.Iio P ×ˢ {z | mu + |z| * sp ∈ A}) ∪ (Set.Ici P ×ˢ {z | mu + |z| * (-sn) ∈ A}) := by
    ext ⟨u, z⟩
    simp only [Set.mem_preimage, Set.mem_union, Set.mem_prod, Set.mem_Iio, Set.mem_Ici, Set.mem_setOf_eq]
    by_cases h : u < P
    · rw [thnValue_pos h]
      constructor
      · intro hm
        exact Or.inl ⟨h, hm⟩
      · rintro (⟨-, hm⟩ | ⟨h', -⟩)
        · exact hm
        · exact absurd h (not_lt.2 h')
    · rw [thnValue_neg h]
      constructor
      · intro hm
        exact Or.inr ⟨not_lt.1 h, hm⟩
      · rintro (⟨h', -⟩ | ⟨-, hm⟩)
        · exact absurd h' h
        · exact hm
  have hm2 : MeasurableSet {z : ℝ | mu + |z| * (-sn) ∈ A} := (by fun_prop : Measurable (fun z : ℝ => mu + |z| * (-sn))) hA
  rw [hset, measure_union _ (measurableSet_Ici.prod hm2), Measure.prod_prod, Measure.prod_prod, unif_lt P hP0 hP1,
    unif_ge P hP0 hP1, abs_law mu sp hp.ne' A hA, abs_law mu (-sn) (neg_ne_zero.2 hn.ne') A hA]
  · have hsqn : sq (-sn) = sq sn := by
      ext
      rw [coe_sq, coe_sq, neg_sq]
    have hb1 : beyond mu sp = Set.Ioi mu := by
      ext x
      simp only [beyond, Set.mem_setOf_eq, Set.mem_Ioi]
      rw [lt_div_iff₀ hp, zero_mul, sub_pos]
    have hb2 : beyond mu (-sn) = Set.Iio mu := by
      ext x
      simp only [beyond, Set.mem_setOf_eq, Set.mem_Iio]
      rw [div_neg, ← neg_div, lt_div_iff₀ hn, zero_mul, neg_sub, sub_pos]
    have h1P : 1 - P = sn / (sn + sp) := by
      rw [hP]
      have : sp + sn ≠ 0 := by positivity
      field_simp
      ring
    rw [hb1, hb2, hsqn, gaussianReal_apply _ (sq_ne_zero' hp.ne'), gaussianReal_apply _ (sq_ne_zero' hn.ne'), h1P]
    have hsplit : ∫⁻ x in A, ENNReal.ofReal (Real.exp (ell mu sp sn x))
        = (∫⁻ x in A ∩ Set.Ioi mu, ENNReal.ofReal (Real.exp (ell mu sp sn x)))
          + ∫⁻ x in A ∩ Set.Iio mu, ENNReal.ofReal (Real.exp (ell mu sp sn x)) := by
      rw [← lintegral_union (hA.inter measurableSet_Iio)]
      · apply setLIntegral_congr
        have h0 : ∀ᵐ x : ℝ ∂volume, x ≠ mu := by
          rw [ae_iff]
          simp
        filter_upwards [h0] with x hx
        apply propext
        change x ∈ A ↔ (x ∈ A ∧ mu < x) ∨ (x ∈ A ∧ x < mu)
        rcases lt_or_gt_of_ne hx with h | h <;> simp [h, h.le, not_lt.2 h.le]
      · rw [Set.disjoint_left]
        rintro x ⟨-, h1⟩ ⟨-, h2⟩
        simp only [Set.mem_Ioi, Set.mem_Iio] at h1 h2
        linarith
    rw [hsplit]
    congr 1
    · rw [← lintegral_const_mul _ (measurable_gaussianPDF _ _), ← lintegral_const_mul _ (by fun_prop)]
      apply setLIntegral_congr_fun (hA.inter measurableSet_Ioi)
      rintro x ⟨-, hx⟩
      simp only [Set.mem_Ioi] at hx
      simp only [ell, if_neg (not_lt.2 hx.le)]
      exact density_half mu sp sn x hp hn
    · rw [← lintegral_const_mul _ (measurable_gaussianPDF _ _), ← lintegral_const_mul _ (by fun_prop)]
      apply setLIntegral_congr_fun (hA.inter measurableSet_Iio)
      rintro x ⟨-, hx⟩
      simp only [Set.mem_Iio] at hx
      simp only [ell, if_pos hx, add_comm sp sn]
      exact density_half mu sn sp x hn hp
  · rw [Set.disjoint_left]
    rintro ⟨u, z⟩ ⟨h1, -⟩ ⟨h2, -⟩
    simp only [Set.mem_Iio, Set.mem_Ici] at h1 h2
    linarith

end Verif.Randgen
