/-
Lemmas for C141: binomial and Poisson counts grow with their parameters, and what is drawn from a larger count is larger.
-/
import Verif.Spec.Larger
import Verif.Lemmas.Counts
import Verif.Lemmas.Width
import Mathlib.MeasureTheory.Integral.Layercake
import Mathlib.Analysis.Calculus.Deriv.MeanValue

namespace Verif.Plugins
open Verif MeasureTheory

variable {Ω Ω' Ω₁ Ω₂ Ω₁' Ω₂' : Type} [MeasurableSpace Ω] [MeasurableSpace Ω'] [MeasurableSpace Ω₁] [MeasurableSpace Ω₂]
  [MeasurableSpace Ω₁'] [MeasurableSpace Ω₂']

theorem larger_refl (P : Measure Ω) (X : Ω → ℤ) : Larger P X P X := fun _ => le_rfl

theorem Larger.trans {Ω'' : Type} [MeasurableSpace Ω''] {P : Measure Ω} {Q : Measure Ω'} {R : Measure Ω''} {X : Ω → ℤ} {Y : Ω' → ℤ} {Z : Ω'' → ℤ}
    (h : Larger R Z Q Y) (h' : Larger Q Y P X) : Larger R Z P X := fun k => (h' k).trans (h k)

/-- Growing functions of larger counts are larger on average. -/
theorem Larger.lintegral {P : Measure Ω} {Q : Measure Ω'} [IsProbabilityMeasure P] [IsProbabilityMeasure Q] {X : Ω → ℤ} {Y : Ω' → ℤ}
    (mX : Measurable X) (mY : Measurable Y) (h : Larger Q Y P X) (g : ℤ → ℝ) (g0 : ∀ m, 0 ≤ g m) (hg : Monotone g) :
    ∫⁻ ω, ENNReal.ofReal (g (X ω)) ∂P ≤ ∫⁻ ω, ENNReal.ofReal (g (Y ω)) ∂Q := by
  rw [lintegral_eq_lintegral_meas_le P (Filter.Eventually.of_forall fun ω => g0 (X ω)) ((measurable_of_countable g).comp mX).aemeasurable,
    lintegral_eq_lintegral_meas_le Q (Filter.Eventually.of_forall fun ω => g0 (Y ω)) ((measurable_of_countable g).comp mY).aemeasurable]
  refine lintegral_mono fun t => ?_
  show P {a | t ≤ g (X a)} ≤ Q {a | t ≤ g (Y a)}
  by_cases hall : ∀ m, t ≤ g m
  · have e1 : {a | t ≤ g (X a)} = Set.univ := by ext; simp [hall]
    have e2 : {a | t ≤ g (Y a)} = Set.univ := by ext; simp [hall]
    rw [e1, e2, measure_univ, measure_univ]
  · by_cases hnone : ∃ m, t ≤ g m
    · push Not at hall
      obtain ⟨b, hb⟩ := hall
      obtain ⟨k, hk, hk'⟩ := Int.exists_least_of_bdd (P := fun m => t ≤ g m)
        ⟨b, fun z hz => le_of_not_gt fun hlt => absurd (hz.trans (hg hlt.le)) (not_le.2 hb)⟩ hnone
      have e : ∀ m, t ≤ g m ↔ k ≤ m := fun m => ⟨fun hm => hk' m hm, fun hm => hk.trans (hg hm)⟩
      simp only [e]
      exact h k
    · push Not at hnone
      have e1 : {a | t ≤ g (X a)} = ∅ := by ext a; simp [hnone]
      rw [e1, measure_empty]
      exact bot_le

/-- Numbers drawn besides do not matter. -/
theorem Larger.lift {P₁ : Measure Ω₁} {P₁' : Measure Ω₁'} {X : Ω₁ → ℤ} {X' : Ω₁' → ℤ} (h : Larger P₁' X' P₁ X) (P₂ : Measure Ω₂) (P₂' : Measure Ω₂')
    [IsProbabilityMeasure P₁] [IsProbabilityMeasure P₁'] [IsProbabilityMeasure P₂] [IsProbabilityMeasure P₂'] :
    Larger (P₁'.prod P₂') (fun ω => X' ω.1) (P₁.prod P₂) (fun ω => X ω.1) := by
  intro k
  have e1 : {ω : Ω₁ × Ω₂ | k ≤ X ω.1} = {ω | k ≤ X ω} ×ˢ Set.univ := by ext; simp
  have e2 : {ω : Ω₁' × Ω₂' | k ≤ X' ω.1} = {ω | k ≤ X' ω} ×ˢ Set.univ := by ext; simp
  rw [e1, e2, Measure.prod_prod, Measure.prod_prod, measure_univ, measure_univ, mul_one, mul_one]
  exact h k

/-- What is drawn from a count. -/
theorem drawn_measurable {X : Ω₁ → ℤ} {b : Ω₂ → ℤ → ℤ} (hX : Count X) (mb : ∀ m, 0 ≤ m → Measurable (fun ω => b ω m)) :
    Measurable (fun ω : Ω₁ × Ω₂ => b ω.2 (X ω.1)) := by
  intro A _
  have hset : {ω : Ω₁ × Ω₂ | b ω.2 (X ω.1) ∈ A} = ⋃ i : ℕ, {ω | X ω = (i : ℤ)} ×ˢ {ω | b ω (i : ℤ) ∈ A} := by
    ext ⟨a, c⟩
    simp only [Set.mem_setOf_eq, Set.mem_iUnion, Set.mem_prod]
    constructor
    · intro h
      have h3 := hX.nonneg a
      refine ⟨(X a).toNat, by omega, ?_⟩
      rwa [Int.toNat_of_nonneg h3]
    · rintro ⟨i, h3, h4⟩
      rwa [h3]
  show MeasurableSet {ω : Ω₁ × Ω₂ | b ω.2 (X ω.1) ∈ A}
  rw [hset]
  refine MeasurableSet.iUnion fun i => MeasurableSet.prod (hX.measurable (measurableSet_singleton _)) ?_
  exact mb i (by positivity) (DiscreteMeasurableSpace.forall_measurableSet A)

theorem drawn_count {X : Ω₁ → ℤ} {b : Ω₂ → ℤ → ℤ} (hX : Count X) (mb : ∀ m, 0 ≤ m → Count (fun ω => b ω m)) :
    Count (fun ω : Ω₁ × Ω₂ => b ω.2 (X ω.1)) :=
  ⟨drawn_measurable hX fun m hm => (mb m hm).measurable, fun ω => (mb _ (hX.nonneg ω.1)).nonneg ω.2⟩

/-- What is drawn from a larger count, and drawn larger, is larger. -/
theorem Larger.step {P₁ : Measure Ω₁} {P₂ : Measure Ω₂} {P₁' : Measure Ω₁'} {P₂' : Measure Ω₂'} [IsProbabilityMeasure P₁] [IsProbabilityMeasure P₂]
    [IsProbabilityMeasure P₁'] [IsProbabilityMeasure P₂'] {X : Ω₁ → ℤ} {X' : Ω₁' → ℤ} {b : Ω₂ → ℤ → ℤ} {b' : Ω₂' → ℤ → ℤ} (hX : Count X)
    (hX' : Count X') (mb : ∀ m, 0 ≤ m → Measurable (fun ω => b ω m)) (mb' : ∀ m, 0 ≤ m → Measurable (fun ω => b' ω m))
    (h : Larger P₁' X' P₁ X) (hb : ∀ m, 0 ≤ m → Larger P₂' (fun ω => b' ω m) P₂ (fun ω => b ω m))
    (hm : ∀ m, 0 ≤ m → Larger P₂' (fun ω => b' ω (m + 1)) P₂' (fun ω => b' ω m)) :
    Larger (P₁'.prod P₂') (fun ω => b' ω.2 (X' ω.1)) (P₁.prod P₂) (fun ω => b ω.2 (X ω.1)) := by
  intro k
  have m1 : MeasurableSet {ω : Ω₁ × Ω₂ | k ≤ b ω.2 (X ω.1)} := drawn_measurable hX mb measurableSet_Ici
  have m2 : MeasurableSet {ω : Ω₁' × Ω₂' | k ≤ b' ω.2 (X' ω.1)} := drawn_measurable hX' mb' measurableSet_Ici
  rw [Measure.prod_apply m1, Measure.prod_apply m2]
  let g : ℤ → ℝ := fun m => (P₂' {ω | k ≤ b' ω (max m 0)}).toReal
  have hg : Monotone g := by
    refine monotone_int_of_le_succ fun m => ENNReal.toReal_mono (measure_ne_top _ _) ?_
    rcases lt_or_ge m 0 with h0 | h0
    · rw [max_eq_right h0.le, max_eq_right (by omega)]
    · rw [max_eq_left h0, max_eq_left (by omega)]
      exact hm m h0 k
  have ofg : ∀ m, 0 ≤ m → ENNReal.ofReal (g m) = P₂' {ω | k ≤ b' ω m} := by
    intro m h0
    show ENNReal.ofReal (P₂' {ω | k ≤ b' ω (max m 0)}).toReal = _
    rw [max_eq_left h0, ENNReal.ofReal_toReal (measure_ne_top _ _)]
  calc ∫⁻ x, P₂ (Prod.mk x ⁻¹' {ω : Ω₁ × Ω₂ | k ≤ b ω.2 (X ω.1)}) ∂P₁
      ≤ ∫⁻ x, ENNReal.ofReal (g (X x)) ∂P₁ := lintegral_mono fun x => by
        rw [ofg _ (hX.nonneg x)]
        exact hb _ (hX.nonneg x) k
    _ ≤ ∫⁻ x, ENNReal.ofReal (g (X' x)) ∂P₁' := h.lintegral hX.measurable hX'.measurable g (fun _ => ENNReal.toReal_nonneg) hg
    _ = ∫⁻ x, P₂' (Prod.mk x ⁻¹' {ω : Ω₁' × Ω₂' | k ≤ b' ω.2 (X' ω.1)}) ∂P₁' := lintegral_congr fun x => by
        rw [ofg _ (hX'.nonneg x)]
        rfl

/-! ### Binomial counts -/

/-- The mean of a function of a binomial count. -/
noncomputable def binomialMean (n : Nat) (p : ℝ) (f : ℕ → ℝ) : ℝ := ∑ k ∈ Finset.range (n + 1), f k * binomialMass n p k

/-- One trial more. -/
theorem binomialMean_succ (n : Nat) (p : ℝ) (f : ℕ → ℝ) :
    binomialMean (n + 1) p f = (1 - p) * binomialMean n p f + p * binomialMean n p (fun k => f (k + 1)) := by
  have key : ∀ (n : Nat) (f : ℕ → ℝ), binomialMean n p f = ∑ s ∈ (Finset.range n).powerset, f s.card * (p ^ s.card * (1 - p) ^ (n - s.card)) := by
    intro n f
    rw [Finset.sum_powerset_apply_card (fun k => f k * (p ^ k * (1 - p) ^ (n - k)))]
    unfold binomialMean binomialMass
    rw [Finset.card_range]
    refine Finset.sum_congr rfl fun k _ => ?_
    simp only [nsmul_eq_mul]
    ring
  rw [key, key, key, Finset.range_add_one, Finset.sum_powerset_insert (by simp), Finset.mul_sum, Finset.mul_sum]
  refine congrArg₂ _ (Finset.sum_congr rfl fun s hs => ?_) (Finset.sum_congr rfl fun s hs => ?_)
  · have hc : s.card ≤ n := by
      have := Finset.card_le_card (Finset.mem_powerset.1 hs)
      rwa [Finset.card_range] at this
    rw [Nat.succ_sub hc, pow_succ]
    ring
  · have hn : n ∉ s := fun h => by
      have := Finset.mem_powerset.1 hs h
      simp at this
    rw [Finset.card_insert_of_notMem hn, pow_succ, Nat.add_sub_add_right]
    ring

theorem binomialMean_le (n : Nat) (p : ℝ) (h0 : 0 ≤ p) (h1 : p ≤ 1) (f g : ℕ → ℝ) (h : ∀ k, f k ≤ g k) : binomialMean n p f ≤ binomialMean n p g :=
  Finset.sum_le_sum fun k _ => mul_le_mul_of_nonneg_right (h k) (binomialMass_nonneg n p h0 h1 k)

theorem binomialMean_mono (n : Nat) (f : ℕ → ℝ) (hf : Monotone f) (p q : ℝ) (h0 : 0 ≤ p) (hpq : p ≤ q) (h1 : q ≤ 1) :
    binomialMean n p f ≤ binomialMean n q f := by
  induction n generalizing f with
  | zero => simp [binomialMean, binomialMass]
  | succ n ih =>
    rw [binomialMean_succ, binomialMean_succ]
    have a := ih f hf
    have b := ih (fun k => f (k + 1)) (fun i j hij => hf (by omega))
    have c := binomialMean_le n q (h0.trans hpq) h1 f (fun k => f (k + 1)) (fun k => hf (Nat.le_succ k))
    nlinarith [mul_le_mul_of_nonneg_left a (show 0 ≤ 1 - p by linarith), mul_le_mul_of_nonneg_left b h0,
      mul_nonneg (show 0 ≤ q - p by linarith) (show 0 ≤ binomialMean n q (fun k => f (k + 1)) - binomialMean n q f by linarith)]

theorem binomialMean_more (n : Nat) (f : ℕ → ℝ) (hf : Monotone f) (p : ℝ) (h0 : 0 ≤ p) (h1 : p ≤ 1) :
    binomialMean n p f ≤ binomialMean (n + 1) p f := by
  rw [binomialMean_succ]
  have c := binomialMean_le n p h0 h1 f (fun k => f (k + 1)) (fun k => hf (Nat.le_succ k))
  nlinarith [mul_nonneg h0 (show 0 ≤ binomialMean n p (fun k => f (k + 1)) - binomialMean n p f by linarith)]

/-- One from `k` on. -/
noncomputable def reached (k : ℤ) (m : ℕ) : ℝ := if k ≤ m then 1 else 0

theorem reached_mono (k : ℤ) : Monotone (reached k) := by
  intro i j hij
  unfold reached
  split
  · rename_i h
    rw [if_pos (by omega)]
  · split <;> norm_num

theorem BinomialCount.tail {P : Measure Ω} [IsProbabilityMeasure P] {X : Ω → ℤ} {n : Nat} {p : ℝ} (h0 : 0 ≤ p) (h1 : p ≤ 1)
    (hX : BinomialCount P X n p) (k : ℤ) : P {ω | k ≤ X ω} = ENNReal.ofReal (binomialMean n p (reached k)) := by
  have h := hX.integral h0 h1 (fun m => if k ≤ m then (1 : ℝ) else 0)
  have e : (fun ω => if k ≤ X ω then (1 : ℝ) else 0) = ({ω | k ≤ X ω} : Set Ω).indicator (fun _ => (1 : ℝ)) := by
    funext ω
    by_cases hk : k ≤ X ω <;> simp [hk]
  have ms : MeasurableSet {ω | k ≤ X ω} := hX.measurable measurableSet_Ici
  rw [e, integral_indicator_const _ ms, smul_eq_mul, mul_one] at h
  unfold binomialMean reached
  rw [← h, Measure.real, ENNReal.ofReal_toReal (measure_ne_top _ _)]

theorem BinomialCount.larger {P : Measure Ω} {Q : Measure Ω'} [IsProbabilityMeasure P] [IsProbabilityMeasure Q] {X : Ω → ℤ} {Y : Ω' → ℤ} {n : Nat}
    {p q : ℝ} (h0 : 0 ≤ p) (hpq : p ≤ q) (h1 : q ≤ 1) (hX : BinomialCount P X n p) (hY : BinomialCount Q Y n q) : Larger Q Y P X := by
  intro k
  rw [hX.tail h0 (hpq.trans h1), hY.tail (h0.trans hpq) h1]
  exact ENNReal.ofReal_le_ofReal (binomialMean_mono n _ (reached_mono k) p q h0 hpq h1)

theorem BinomialCount.more {P : Measure Ω} {Q : Measure Ω'} [IsProbabilityMeasure P] [IsProbabilityMeasure Q] {X : Ω → ℤ} {Y : Ω' → ℤ} {n : Nat}
    {p : ℝ} (h0 : 0 ≤ p) (h1 : p ≤ 1) (hX : BinomialCount P X n p) (hY : BinomialCount Q Y (n + 1) p) : Larger Q Y P X := by
  intro k
  rw [hX.tail h0 h1, hY.tail h0 h1]
  exact ENNReal.ofReal_le_ofReal (binomialMean_more n _ (reached_mono k) p h0 h1)

theorem BinomialCount.larger_of_le {P : Measure Ω} {Q : Measure Ω'} [IsProbabilityMeasure P] [IsProbabilityMeasure Q] {X : Ω → ℤ} {Y : Ω' → ℤ}
    {n m : Nat} (hnm : n ≤ m) {p q : ℝ} (h0 : 0 ≤ p) (hpq : p ≤ q) (h1 : q ≤ 1) (hX : BinomialCount P X n p) (hY : BinomialCount Q Y m q) :
    Larger Q Y P X := by
  intro k
  rw [hX.tail h0 (hpq.trans h1), hY.tail (h0.trans hpq) h1]
  refine ENNReal.ofReal_le_ofReal ((binomialMean_mono n _ (reached_mono k) p q h0 hpq h1).trans ?_)
  exact monotone_nat_of_le_succ (fun i => binomialMean_more i _ (reached_mono k) q (h0.trans hpq) h1) hnm

/-- The probability of at least one. -/
theorem BinomialCount.some {P : Measure Ω} [IsProbabilityMeasure P] {X : Ω → ℤ} {n : Nat} {p : ℝ} (h0 : 0 ≤ p) (h1 : p ≤ 1)
    (hX : BinomialCount P X n p) : P {ω | 1 ≤ X ω} = ENNReal.ofReal (1 - (1 - p) ^ n) := by
  rw [hX.tail h0 h1]
  congr 1
  have h := sum_mass n p
  unfold binomialMean
  rw [Finset.sum_range_succ'] at h ⊢
  have e : ∀ k : Nat, reached 1 (k + 1) = 1 := fun k => if_pos (by omega)
  have e0 : reached 1 0 = 0 := if_neg (by norm_num)
  simp only [e, e0, one_mul, zero_mul, add_zero]
  have e1 : binomialMass n p 0 = (1 - p) ^ n := by simp [binomialMass]
  rw [e1] at h
  linarith

theorem Binomially.count {P : Measure Ω} {b : Ω → Binomial} {p : ℝ} (h : Binomially P b p) (m : ℤ) (hm : 0 ≤ m) : Count (fun ω => b ω (.fin p) m) := by
  have := h m.toNat m.toNat le_rfl
  simp only [Int.toNat_of_nonneg hm] at this
  exact ⟨this.measurable, fun ω => (this.range ω).1⟩

theorem Binomially.larger {P : Measure Ω} {Q : Measure Ω'} [IsProbabilityMeasure P] [IsProbabilityMeasure Q] {b : Ω → Binomial} {b' : Ω' → Binomial}
    {p q : ℝ} (h0 : 0 ≤ p) (hpq : p ≤ q) (h1 : q ≤ 1) (h : Binomially P b p) (h' : Binomially Q b' q) (m : ℤ) (hm : 0 ≤ m) :
    Larger Q (fun ω => b' ω (.fin q) m) P (fun ω => b ω (.fin p) m) := by
  have a := h m.toNat m.toNat le_rfl
  have b := h' m.toNat m.toNat le_rfl
  simp only [Int.toNat_of_nonneg hm] at a b
  exact a.larger h0 hpq h1 b

theorem Binomially.more {P : Measure Ω} [IsProbabilityMeasure P] {b : Ω → Binomial} {p : ℝ} (h0 : 0 ≤ p) (h1 : p ≤ 1) (h : Binomially P b p) (m : ℤ)
    (hm : 0 ≤ m) : Larger P (fun ω => b ω (.fin p) (m + 1)) P (fun ω => b ω (.fin p) m) := by
  have a := h m.toNat m.toNat le_rfl
  have b := h (m.toNat + 1) (m.toNat + 1) le_rfl
  have e : ((m.toNat + 1 : ℕ) : ℤ) = m + 1 := by omega
  simp only [Int.toNat_of_nonneg hm] at a
  rw [e] at b
  exact a.more h0 h1 b

/-! ### Poisson counts -/

/-- The probability of less than `k`. -/
theorem poisson_below_deriv (k : Nat) (mu : ℝ) :
    HasDerivAt (fun x : ℝ => Real.exp (-x) * ∑ j ∈ Finset.range (k + 1), x ^ j / j.factorial) (-(Real.exp (-mu) * mu ^ k / k.factorial)) mu := by
  have he : HasDerivAt (fun x : ℝ => Real.exp (-x)) (-Real.exp (-mu)) mu := by
    simpa using (hasDerivAt_neg mu).exp
  induction k with
  | zero => simpa using he
  | succ k ih =>
    have e : (fun x : ℝ => Real.exp (-x) * ∑ j ∈ Finset.range (k + 1 + 1), x ^ j / j.factorial)
        = fun x : ℝ => Real.exp (-x) * ∑ j ∈ Finset.range (k + 1), x ^ j / j.factorial + Real.exp (-x) * (x ^ (k + 1) / (k + 1).factorial) := by
      funext x
      rw [Finset.sum_range_succ, mul_add]
    rw [e]
    have hp : HasDerivAt (fun x : ℝ => x ^ (k + 1) / ((k + 1).factorial : ℝ)) (((k + 1 : ℕ) : ℝ) * mu ^ k / ((k + 1).factorial : ℝ)) mu := by
      simpa using (hasDerivAt_pow (k + 1) mu).div_const _
    refine (ih.add (he.mul hp)).congr_deriv ?_
    rw [Nat.factorial_succ]
    push_cast
    have h1 : ((k : ℝ) + 1) ≠ 0 := by positivity
    have h2 : ((k.factorial : ℕ) : ℝ) ≠ 0 := by positivity
    field_simp
    ring

theorem poisson_below_antitone (k : Nat) (mu nu : ℝ) (h0 : 0 ≤ mu) (h : mu ≤ nu) :
    ∑ j ∈ Finset.range k, Real.exp (-nu) * nu ^ j / j.factorial ≤ ∑ j ∈ Finset.range k, Real.exp (-mu) * mu ^ j / j.factorial := by
  cases k with
  | zero => simp
  | succ k =>
    have e : ∀ x : ℝ, ∑ j ∈ Finset.range (k + 1), Real.exp (-x) * x ^ j / j.factorial = Real.exp (-x) * ∑ j ∈ Finset.range (k + 1), x ^ j / j.factorial := by
      intro x
      rw [Finset.mul_sum]
      exact Finset.sum_congr rfl fun j _ => by ring
    rw [e, e]
    have hd := poisson_below_deriv k
    have : AntitoneOn (fun x : ℝ => Real.exp (-x) * ∑ j ∈ Finset.range (k + 1), x ^ j / j.factorial) (Set.Ici 0) := by
      refine antitoneOn_of_deriv_nonpos (convex_Ici 0) (fun x _ => (hd x).continuousAt.continuousWithinAt)
        (fun x _ => (hd x).differentiableAt.differentiableWithinAt) fun x hx => ?_
      rw [(hd x).deriv]
      rw [interior_Ici] at hx
      have : 0 < x := hx
      have : 0 ≤ Real.exp (-x) * x ^ k / k.factorial := by positivity
      linarith
    exact this h0 (h0.trans h) h

theorem PoissonCount.below {P : Measure Ω} {X : Ω → ℤ} {mu : ℝ} (h0 : 0 ≤ mu) (hX : PoissonCount P X mu) (k : Nat) :
    P {ω | X ω < k} = ENNReal.ofReal (∑ j ∈ Finset.range k, Real.exp (-mu) * mu ^ j / j.factorial) := by
  have hset : {ω | X ω < k} = ⋃ j ∈ Finset.range k, {ω | X ω = (j : ℤ)} := by
    ext ω
    have := hX.nonneg ω
    simp only [Set.mem_setOf_eq, Set.mem_iUnion, Finset.mem_range, exists_prop]
    exact ⟨fun h => ⟨(X ω).toNat, by omega, by omega⟩, fun ⟨j, hj, h⟩ => by omega⟩
  rw [hset, measure_biUnion_finset, ENNReal.ofReal_sum_of_nonneg (fun j _ => by positivity)]
  · exact Finset.sum_congr rfl fun j _ => hX.law j
  · intro i _ j _ hij
    simp only [Function.onFun]
    rw [Set.disjoint_left]
    intro a ha hc
    have h3 : X a = i := ha
    have h4 : X a = j := hc
    exact hij (by exact_mod_cast h3.symm.trans h4)
  · exact fun j _ => hX.measurable (measurableSet_singleton _)

theorem PoissonCount.larger {P : Measure Ω} {Q : Measure Ω'} [IsProbabilityMeasure P] [IsProbabilityMeasure Q] {X : Ω → ℤ} {Y : Ω' → ℤ} {mu nu : ℝ}
    (h0 : 0 ≤ mu) (h : mu ≤ nu) (hX : PoissonCount P X mu) (hY : PoissonCount Q Y nu) : Larger Q Y P X := by
  intro k
  rcases le_or_gt k 0 with hk | hk
  · have e1 : {ω | k ≤ Y ω} = Set.univ := by
      ext ω
      have := hY.nonneg ω
      simp only [Set.mem_setOf_eq, Set.mem_univ, iff_true]
      omega
    rw [e1, measure_univ]
    exact prob_le_one
  · obtain ⟨n, rfl⟩ := Int.eq_ofNat_of_zero_le hk.le
    have e1 : {ω | (n : ℤ) ≤ X ω} = {ω | X ω < n}ᶜ := by ext; simp
    have e2 : {ω | (n : ℤ) ≤ Y ω} = {ω | Y ω < n}ᶜ := by ext; simp
    have m1 : MeasurableSet {ω | X ω < n} := hX.measurable measurableSet_Iio
    have m2 : MeasurableSet {ω | Y ω < n} := hY.measurable measurableSet_Iio
    rw [e1, e2, prob_compl_eq_one_sub m1, prob_compl_eq_one_sub m2, hX.below h0, hY.below (h0.trans h)]
    exact tsub_le_tsub_left (ENNReal.ofReal_le_ofReal (poisson_below_antitone n mu nu h0 h)) 1

end Verif.Plugins
