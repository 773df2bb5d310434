/-
Lemmas for the law of the generalized Poisson sampler: the generations form a Markov chain, and the total of a branching process
with Poisson offspring follows the generalized Poisson distribution.
-/
import Verif.Lemmas.Randgen
import Mathlib.Data.Nat.Choose.Sum
import Mathlib.MeasureTheory.Integral.Lebesgue.Countable
import Mathlib.Probability.Distributions.Poisson.Basic
import Mathlib.Analysis.SpecificLimits.Normed
import Mathlib.Probability.Independence.InfinitePi

namespace Verif.Randgen
open Verif MeasureTheory ProbabilityTheory
open scoped ENNReal

/-! ### The identity behind the law -/

/-- Poisson weights. -/
noncomputable def poisW (x : ℝ) (n : Nat) : ℝ := Real.exp (-x) * x ^ n / n.factorial

theorem poisW_nonneg {x : ℝ} (hx : 0 ≤ x) (n : Nat) : 0 ≤ poisW x n := by unfold poisW; positivity

theorem gpPmf_nonneg {t e : ℝ} (ht : 0 ≤ t) (he : 0 ≤ e) (n : Nat) : 0 ≤ gpPmf t e n := by
  cases n <;> unfold gpPmf <;> positivity

theorem gpPmf_zero_start (e : ℝ) (n : Nat) : gpPmf 0 e n = if n = 0 then 1 else 0 := by
  cases n <;> simp [gpPmf]

theorem gpPmf_offspring (e : ℝ) (N c : Nat) (hc : c ≤ N) :
    gpPmf (e * (c + 1 : ℕ)) e (N - c) =
      (e * (N + 1)) ^ (N - c) * ((c + 1) / (N + 1)) / (N - c).factorial * Real.exp (-(e * (N + 1))) := by
  obtain ⟨d, rfl⟩ := Nat.exists_eq_add_of_le hc
  rw [Nat.add_sub_cancel_left]
  cases d with
  | zero =>
    have : (c : ℝ) + 1 ≠ 0 := by positivity
    simp [gpPmf, this]
  | succ d =>
    have h1 : ((c : ℝ) + (d + 1) + 1) ≠ 0 := by positivity
    have h2 : e * (c + 1 : ℕ) + (d + 1) * e = e * (c + (d + 1) + 1) := by push_cast; ring
    have h3 : -(e * (c + 1 : ℕ)) - ((d : ℝ) + 1) * e = -(e * (c + (d + 1) + 1)) := by push_cast; ring
    rw [gpPmf, h2, h3]
    push_cast
    rw [pow_succ]
    field_simp

/-- Conditioning on the first generation. -/
theorem gpPmf_step (t e : ℝ) (n : Nat) :
    ∑ b ∈ Finset.range (n + 1), poisW t b * gpPmf (e * b) e (n - b) = gpPmf t e n := by
  cases n with
  | zero => simp [poisW, gpPmf]
  | succ N =>
    rw [Finset.sum_range_succ']
    have h0 : poisW t 0 * gpPmf (e * (0 : ℕ)) e (N + 1 - 0) = 0 := by simp [gpPmf_zero_start]
    rw [h0, add_zero]
    have hterm : ∀ c ∈ Finset.range (N + 1), poisW t (c + 1) * gpPmf (e * (c + 1 : ℕ)) e (N + 1 - (c + 1)) =
        t ^ c * ((N + 1) * e) ^ (N - c) * (N.choose c) *
          (t * Real.exp (-t - (N + 1) * e) / (N + 1).factorial) := by
      intro c hc
      have hc' : c ≤ N := Nat.lt_succ_iff.1 (Finset.mem_range.1 hc)
      rw [Nat.add_sub_add_right, gpPmf_offspring e N c hc', poisW]
      have he : Real.exp (-t - (N + 1) * e) = Real.exp (-t) * Real.exp (-(e * (N + 1))) := by
        rw [← Real.exp_add]; congr 1; ring
      rw [he, mul_comm e]
      have hch : (N.choose c : ℝ) = N.factorial / (c.factorial * (N - c).factorial) := Nat.cast_choose ℝ hc'
      rw [hch, Nat.factorial_succ, Nat.factorial_succ]
      have h1 : (c.factorial : ℝ) ≠ 0 := by exact_mod_cast c.factorial_ne_zero
      have h2 : ((N - c).factorial : ℝ) ≠ 0 := by exact_mod_cast (N - c).factorial_ne_zero
      have h3 : (N.factorial : ℝ) ≠ 0 := by exact_mod_cast N.factorial_ne_zero
      have h4 : ((N : ℝ) + 1) ≠ 0 := by positivity
      have h5 : ((c : ℝ) + 1) ≠ 0 := by positivity
      push_cast
      rw [pow_succ]
      field_simp
    rw [Finset.sum_congr rfl hterm, ← Finset.sum_mul, ← add_pow, gpPmf]
    ring

/-! ### The chain of generations -/

variable {m : Nat} {Ω : Type} [mΩ : MeasurableSpace Ω] {P : Measure Ω} {r : Ω → Rng m}

/-- What is drawn from one key. -/
def keySig (r : Ω → Rng m) (k : Key) : MeasurableSpace Ω := MeasurableSpace.comap (fun ω => (r ω).poisson k) inferInstance

/-- What is drawn from the keys up to number `j`. -/
def past (r : Ω → Rng m) (ks : Nat → Key) (j : Nat) : MeasurableSpace Ω := ⨆ k ∈ ks '' Set.Iic j, keySig r k

theorem keySig_le (hr : IdealPoisson P r) (k : Key) : keySig r k ≤ mΩ := by
  apply Measurable.comap_le
  exact measurable_pi_lambda _ (fun lam => measurable_pi_lambda _ (fun i => hr.meas k lam i))

theorem past_le (hr : IdealPoisson P r) (ks : Nat → Key) (j : Nat) : past r ks j ≤ mΩ :=
  iSup₂_le (fun k _ => keySig_le hr k)

theorem past_mono (r : Ω → Rng m) (ks : Nat → Key) {i j : Nat} (h : i ≤ j) : past r ks i ≤ past r ks j :=
  biSup_mono (fun _ ⟨a, ha, e⟩ => ⟨a, le_trans ha h, e⟩)

theorem keySig_le_past (r : Ω → Rng m) (ks : Nat → Key) (j : Nat) : keySig r (ks j) ≤ past r ks j :=
  le_iSup₂_of_le (ks j) ⟨j, le_refl j, rfl⟩ le_rfl

theorem draw_meas (r : Ω → Rng m) (k : Key) (lam : Fin m → ℝ) (i : Fin m) (n : Nat) :
    MeasurableSet[keySig r k] {ω | (r ω).poisson k lam i = n} := by
  refine ⟨{f | f lam i = n}, ?_, rfl⟩
  have : Measurable (fun f : (Fin m → ℝ) → Fin m → ℕ => f lam i) :=
    (measurable_pi_apply i).comp (measurable_pi_apply lam)
  exact this (measurableSet_singleton n)

theorem draws_meas (r : Ω → Rng m) (k : Key) (lam : Fin m → ℝ) (o : Fin m → Nat) :
    MeasurableSet[keySig r k] {ω | (r ω).poisson k lam = o} := by
  have : {ω | (r ω).poisson k lam = o} = ⋂ i, {ω | (r ω).poisson k lam i = o i} := by
    ext ω; simp [funext_iff]
  rw [this]
  exact MeasurableSet.iInter (fun i => draw_meas r k lam i (o i))

theorem gen_meas (r : Ω → Rng m) (lam eta : Fin m → ℝ) (ks : Nat → Key) (j : Nat) (o : Fin m → Nat) :
    MeasurableSet[past r ks j] {ω | generation (r ω) lam eta ks j = o} := by
  induction j generalizing o with
  | zero => exact keySig_le_past r ks 0 _ (draws_meas r (ks 0) _ o)
  | succ j ih =>
    have : {ω | generation (r ω) lam eta ks (j + 1) = o} =
        ⋃ q : Fin m → Nat, {ω | generation (r ω) lam eta ks j = q} ∩
          {ω | (r ω).poisson (ks (j + 1)) (fun i => eta i * (q i : ℝ)) = o} := by
      ext ω
      simp [generation]
    rw [this]
    exact MeasurableSet.iUnion (fun q => MeasurableSet.inter (past_mono r ks (Nat.le_succ j) _ (ih q))
      (keySig_le_past r ks (j + 1) _ (draws_meas r _ _ o)))

theorem gen_elem_meas (r : Ω → Rng m) (lam eta : Fin m → ℝ) (ks : Nat → Key) (j : Nat) (i : Fin m) (p : Nat → Prop) :
    MeasurableSet[past r ks j] {ω | p (generation (r ω) lam eta ks j i)} := by
  classical
  have : {ω | p (generation (r ω) lam eta ks j i)} =
      ⋃ q : {q : Fin m → Nat // p (q i)}, {ω | generation (r ω) lam eta ks j = q.1} := by
    ext ω
    simp only [Set.mem_setOf_eq, Set.mem_iUnion, Subtype.exists, exists_prop]
    constructor
    · intro h; exact ⟨_, h, rfl⟩
    · rintro ⟨q, h, rfl⟩; exact h
  rw [this]
  exact MeasurableSet.iUnion (fun q => gen_meas r lam eta ks j q.1)

theorem past_indep (hr : IdealPoisson P r) (ks : Nat → Key) (hk : Function.Injective ks) (j : Nat) (A B : Set Ω)
    (hA : MeasurableSet[past r ks j] A) (hB : MeasurableSet[keySig r (ks (j + 1))] B) : P (A ∩ B) = P A * P B := by
  have hd : Disjoint (ks '' Set.Iic j) {ks (j + 1)} := by
    rw [Set.disjoint_singleton_right]
    rintro ⟨a, ha, e⟩
    have := hk e
    simp only [Set.mem_Iic] at ha
    omega
  have h := indep_iSup_of_disjoint (keySig_le hr) hr.indep hd
  have hB' : MeasurableSet[⨆ k ∈ ({ks (j + 1)} : Set Key), keySig r k] B := by
    rw [iSup_singleton]; exact hB
  exact (Indep_iff _ _ _).1 h A B hA hB'

/-- Given the past, the next generation of an element is Poisson distributed with `eta` times the present one. -/
theorem markov (hr : IdealPoisson P r) (lam eta : Fin m → ℝ) (ks : Nat → Key) (hk : Function.Injective ks) (j : Nat)
    (i : Fin m) (he : 0 ≤ eta i) (A : Set Ω) (hA : MeasurableSet[past r ks j] A) (a n : Nat) :
    P (A ∩ {ω | generation (r ω) lam eta ks j i = a} ∩ {ω | generation (r ω) lam eta ks (j + 1) i = n}) =
      P (A ∩ {ω | generation (r ω) lam eta ks j i = a}) * ENNReal.ofReal (poisW (eta i * a) n) := by
  set B := A ∩ {ω | generation (r ω) lam eta ks j i = a} with hBdef
  have hB : MeasurableSet[past r ks j] B := MeasurableSet.inter hA (gen_elem_meas r lam eta ks j i (fun x => x = a))
  have hBo : ∀ o : Fin m → Nat, MeasurableSet[past r ks j] (B ∩ {ω | generation (r ω) lam eta ks j = o}) :=
    fun o => MeasurableSet.inter hB (gen_meas r lam eta ks j o)
  have hle := past_le hr ks j
  have hdis : Pairwise (Function.onFun Disjoint
      (fun o : Fin m → Nat => B ∩ {ω | generation (r ω) lam eta ks j = o})) := by
    intro o o' hne
    rw [Function.onFun, Set.disjoint_left]
    rintro ω ⟨_, h1⟩ ⟨_, h2⟩
    exact hne (h1.symm.trans h2)
  have hB1 : B = ⋃ o : Fin m → Nat, B ∩ {ω | generation (r ω) lam eta ks j = o} := by
    ext ω; simp
  have hB2 : B ∩ {ω | generation (r ω) lam eta ks (j + 1) i = n} =
      ⋃ o : Fin m → Nat, (B ∩ {ω | generation (r ω) lam eta ks j = o}) ∩
        {ω | (r ω).poisson (ks (j + 1)) (fun i => eta i * (o i : ℝ)) i = n} := by
    ext ω
    simp [generation]
  rw [hB2, measure_iUnion]
  · conv_rhs => rw [hB1, measure_iUnion hdis (fun o => hle _ (hBo o)), ← ENNReal.tsum_mul_right]
    apply tsum_congr
    intro o
    by_cases ho : o i = a
    · rw [past_indep hr ks hk j _ _ (hBo o) (draw_meas r _ _ i n), hr.law _ _ _ _ (by positivity), ho]
      rfl
    · have : B ∩ {ω | generation (r ω) lam eta ks j = o} = ∅ := by
        ext ω
        simp only [Set.mem_inter_iff, Set.mem_setOf_eq, Set.mem_empty_iff_false, iff_false, not_and, hBdef]
        rintro ⟨_, h1⟩ h2
        rw [h2] at h1
        exact ho h1
      rw [this]
      simp
  · intro o o' hne
    exact Disjoint.mono Set.inter_subset_left Set.inter_subset_left (hdis hne)
  · intro o
    exact MeasurableSet.inter (hle _ (hBo o)) (keySig_le hr _ _ (draw_meas r _ _ i n))

/-- Probability that a generation of `a` is followed, within `L` generations, by `n` descendants, the last generation empty. -/
noncomputable def tailW (e : ℝ) : Nat → Nat → Nat → ℝ≥0∞
  | 0, a, n => if a = 0 ∧ n = 0 then 1 else 0
  | L + 1, a, n => ∑ b ∈ Finset.range (n + 1), ENNReal.ofReal (poisW (e * a) b) * tailW e L b (n - b)

/-- The event of `tailW` after generation `j`. -/
def tailEvent (r : Ω → Rng m) (lam eta : Fin m → ℝ) (ks : Nat → Key) (i : Fin m) (j L n : Nat) : Set Ω :=
  {ω | generation (r ω) lam eta ks (j + L) i = 0 ∧
    ∑ k ∈ Finset.range L, generation (r ω) lam eta ks (j + (k + 1)) i = n}

theorem tail_prob (hr : IdealPoisson P r) (lam eta : Fin m → ℝ) (ks : Nat → Key) (hk : Function.Injective ks)
    (i : Fin m) (he : 0 ≤ eta i) (L : Nat) : ∀ (j : Nat) (A : Set Ω), MeasurableSet[past r ks j] A → ∀ a n : Nat,
      P (A ∩ {ω | generation (r ω) lam eta ks j i = a} ∩ tailEvent r lam eta ks i j L n) =
        P (A ∩ {ω | generation (r ω) lam eta ks j i = a}) * tailW (eta i) L a n := by
  induction L with
  | zero =>
    intro j A hA a n
    unfold tailW
    by_cases h : a = 0 ∧ n = 0
    · rw [if_pos h, mul_one]
      congr 1
      ext ω
      simp only [tailEvent, Set.mem_inter_iff, Set.mem_setOf_eq, add_zero, Finset.range_zero, Finset.sum_empty]
      constructor
      · exact fun h => h.1
      · exact fun h' => ⟨h', by rw [h'.2]; exact h.1, h.2.symm⟩
    · rw [if_neg h, mul_zero]
      have : A ∩ {ω | generation (r ω) lam eta ks j i = a} ∩ tailEvent r lam eta ks i j 0 n = ∅ := by
        ext ω
        simp only [tailEvent, Set.mem_inter_iff, Set.mem_setOf_eq, add_zero, Finset.range_zero, Finset.sum_empty,
          Set.mem_empty_iff_false, iff_false]
        rintro ⟨⟨_, h1⟩, h2, h3⟩
        exact h ⟨by rw [← h1, h2], h3.symm⟩
      rw [this, measure_empty]
  | succ L ih =>
    intro j A hA a n
    set B := A ∩ {ω | generation (r ω) lam eta ks j i = a} with hBdef
    have hB : MeasurableSet[past r ks j] B := MeasurableSet.inter hA (gen_elem_meas r lam eta ks j i (fun x => x = a))
    have hB' : MeasurableSet[past r ks (j + 1)] B := past_mono r ks (Nat.le_succ j) _ hB
    have hset : B ∩ tailEvent r lam eta ks i j (L + 1) n = ⋃ b ∈ Finset.range (n + 1),
        B ∩ {ω | generation (r ω) lam eta ks (j + 1) i = b} ∩ tailEvent r lam eta ks i (j + 1) L (n - b) := by
      ext ω
      simp only [tailEvent, Set.mem_inter_iff, Set.mem_setOf_eq, Set.mem_iUnion, Finset.mem_range, exists_prop]
      have hs : ∑ k ∈ Finset.range (L + 1), generation (r ω) lam eta ks (j + (k + 1)) i =
          ∑ k ∈ Finset.range L, generation (r ω) lam eta ks (j + 1 + (k + 1)) i + generation (r ω) lam eta ks (j + 1) i := by
        rw [Finset.sum_range_succ']
        congr 1
        exact Finset.sum_congr rfl (fun k _ => by rw [show j + (k + 1 + 1) = j + 1 + (k + 1) by omega])
      rw [hs, show j + (L + 1) = j + 1 + L by omega]
      constructor
      · rintro ⟨h1, h2, h3⟩
        exact ⟨_, by omega, ⟨h1, rfl⟩, h2, by omega⟩
      · rintro ⟨b, h0, ⟨h1, h1'⟩, h2, h3⟩
        exact ⟨h1, h2, by omega⟩
    rw [hset, measure_biUnion_finset]
    · unfold tailW
      rw [Finset.mul_sum]
      apply Finset.sum_congr rfl
      intro b _
      rw [ih (j + 1) B hB' b (n - b), hBdef, markov hr lam eta ks hk j i he A hA a b, mul_assoc]
    · intro b _ b' _ hne
      rw [Function.onFun, Set.disjoint_left]
      rintro ω ⟨⟨_, h1⟩, _⟩ ⟨⟨_, h2⟩, _⟩
      exact hne (h1.symm.trans h2)
    · intro b _
      refine MeasurableSet.inter (MeasurableSet.inter (past_le hr ks _ _ hB')
        (past_le hr ks _ _ (gen_elem_meas r lam eta ks (j + 1) i (fun x => x = b)))) ?_
      refine MeasurableSet.inter (past_le hr ks _ _ (gen_elem_meas r lam eta ks (j + 1 + L) i (fun x => x = 0))) ?_
      have hm : Measurable (fun ω => ∑ k ∈ Finset.range L, generation (r ω) lam eta ks (j + 1 + (k + 1)) i) := by
        apply Finset.measurable_sum
        intro k _
        apply measurable_to_countable'
        intro x
        exact past_le hr ks _ _ (gen_elem_meas r lam eta ks (j + 1 + (k + 1)) i (fun y => y = x))
      exact hm (measurableSet_singleton _)

theorem tailW_zero_start (e : ℝ) (L n : Nat) : tailW e L 0 n = if n = 0 then 1 else 0 := by
  induction L generalizing n with
  | zero => simp [tailW]
  | succ L ih =>
    unfold tailW
    rw [Finset.sum_range_succ', Finset.sum_eq_zero]
    · simp [poisW, ih]
    · intro b _
      simp [poisW]

theorem tailW_eq {e : ℝ} (he : 0 ≤ e) (L : Nat) : ∀ a n, n < L → tailW e L a n = ENNReal.ofReal (gpPmf (e * a) e n) := by
  induction L with
  | zero => intro a n h; omega
  | succ L ih =>
    intro a n h
    unfold tailW
    rw [← gpPmf_step, ENNReal.ofReal_sum_of_nonneg (fun b _ => mul_nonneg (poisW_nonneg (by positivity) _)
      (gpPmf_nonneg (by positivity) he _))]
    apply Finset.sum_congr rfl
    intro b hb
    rw [ENNReal.ofReal_mul (poisW_nonneg (by positivity) _)]
    congr 1
    rcases Nat.eq_zero_or_pos b with rfl | hb0
    · rw [tailW_zero_start]
      simp only [Nat.cast_zero, mul_zero, gpPmf_zero_start, Nat.sub_zero]
      split <;> simp
    · apply ih
      have := Finset.mem_range.1 hb
      omega

/-! ### Means and extinction -/

theorem poisW_sum {x : ℝ} (hx : 0 ≤ x) : ∑' b, ENNReal.ofReal (poisW x b) = 1 := by
  have h := hasSum_one_poissonMeasure ⟨x, hx⟩
  change HasSum (poisW x) 1 at h
  rw [← ENNReal.ofReal_tsum_of_nonneg (poisW_nonneg hx) h.summable, h.tsum_eq, ENNReal.ofReal_one]

theorem poisW_mean {x : ℝ} (hx : 0 ≤ x) : ∑' b : Nat, (b : ℝ≥0∞) * ENNReal.ofReal (poisW x b) = ENNReal.ofReal x := by
  rw [tsum_eq_zero_add' ENNReal.summable]
  have : ∀ b : Nat, ((b + 1 : ℕ) : ℝ≥0∞) * ENNReal.ofReal (poisW x (b + 1)) = ENNReal.ofReal x * ENNReal.ofReal (poisW x b) := by
    intro b
    rw [← ENNReal.ofReal_natCast, ← ENNReal.ofReal_mul (by positivity), ← ENNReal.ofReal_mul hx]
    congr 1
    unfold poisW
    rw [Nat.factorial_succ]
    have h1 : (b.factorial : ℝ) ≠ 0 := by exact_mod_cast b.factorial_ne_zero
    have h2 : ((b : ℝ) + 1) ≠ 0 := by positivity
    push_cast
    rw [pow_succ']
    field_simp
  simp only [this, ENNReal.tsum_mul_left, poisW_sum hx]
  simp

theorem gen_partition (hr : IdealPoisson P r) (lam eta : Fin m → ℝ) (ks : Nat → Key) (j : Nat) (i : Fin m) (B : Set Ω)
    (hB : MeasurableSet B) : P B = ∑' a : Nat, P ({ω | generation (r ω) lam eta ks j i = a} ∩ B) := by
  rw [← measure_iUnion]
  · congr 1
    ext ω; simp
  · intro a b hne
    rw [Function.onFun, Set.disjoint_left]
    rintro ω ⟨h1, _⟩ ⟨h2, _⟩
    exact hne (h1.symm.trans h2)
  · intro a
    exact MeasurableSet.inter (past_le hr ks _ _ (gen_elem_meas r lam eta ks j i (fun x => x = a))) hB

/-- The mean of generation `j`. -/
theorem gen_mean (hr : IdealPoisson P r) (lam eta : Fin m → ℝ) (ks : Nat → Key) (hk : Function.Injective ks)
    (i : Fin m) (hl : 0 ≤ lam i) (he : 0 ≤ eta i) (he1 : eta i ≤ 1) (j : Nat) :
    ∑' a : Nat, (a : ℝ≥0∞) * P {ω | generation (r ω) lam eta ks j i = a} =
      ENNReal.ofReal (eta i ^ j * (lam i * (1 - eta i))) := by
  have h0 : 0 ≤ lam i * (1 - eta i) := mul_nonneg hl (by linarith)
  induction j with
  | zero =>
    rw [pow_zero, one_mul, ← poisW_mean h0]
    apply tsum_congr
    intro a
    congr 1
    exact hr.law _ _ _ _ h0
  | succ j ih =>
    have hm : ∀ b : Nat, P {ω | generation (r ω) lam eta ks (j + 1) i = b} =
        ∑' a : Nat, P {ω | generation (r ω) lam eta ks j i = a} * ENNReal.ofReal (poisW (eta i * a) b) := by
      intro b
      rw [gen_partition hr lam eta ks j i _ (past_le hr ks _ _ (gen_elem_meas r lam eta ks (j + 1) i (fun x => x = b)))]
      apply tsum_congr
      intro a
      have := markov hr lam eta ks hk j i he Set.univ MeasurableSet.univ a b
      simpa using this
    calc ∑' b : Nat, (b : ℝ≥0∞) * P {ω | generation (r ω) lam eta ks (j + 1) i = b}
        = ∑' b : Nat, ∑' a : Nat, (b : ℝ≥0∞) *
            (P {ω | generation (r ω) lam eta ks j i = a} * ENNReal.ofReal (poisW (eta i * a) b)) := by
          apply tsum_congr; intro b; rw [hm, ENNReal.tsum_mul_left]
      _ = ∑' a : Nat, P {ω | generation (r ω) lam eta ks j i = a} *
            ∑' b : Nat, (b : ℝ≥0∞) * ENNReal.ofReal (poisW (eta i * a) b) := by
          rw [ENNReal.tsum_comm]
          apply tsum_congr; intro a
          rw [← ENNReal.tsum_mul_left]
          apply tsum_congr; intro b
          rw [mul_left_comm]
      _ = ∑' a : Nat, ENNReal.ofReal (eta i) * ((a : ℝ≥0∞) * P {ω | generation (r ω) lam eta ks j i = a}) := by
          apply tsum_congr; intro a
          rw [poisW_mean (by positivity), ENNReal.ofReal_mul he, ENNReal.ofReal_natCast]
          ring
      _ = ENNReal.ofReal (eta i ^ (j + 1) * (lam i * (1 - eta i))) := by
          rw [ENNReal.tsum_mul_left, ih, ← ENNReal.ofReal_mul he]
          congr 1
          ring

theorem gen_alive (hr : IdealPoisson P r) (lam eta : Fin m → ℝ) (ks : Nat → Key) (hk : Function.Injective ks)
    (i : Fin m) (hl : 0 ≤ lam i) (he : 0 ≤ eta i) (he1 : eta i ≤ 1) (j : Nat) :
    P {ω | 0 < generation (r ω) lam eta ks j i} ≤ ENNReal.ofReal (eta i ^ j * (lam i * (1 - eta i))) := by
  rw [← gen_mean hr lam eta ks hk i hl he he1 j,
    gen_partition hr lam eta ks j i _ (past_le hr ks _ _ (gen_elem_meas r lam eta ks j i (fun x => 0 < x)))]
  apply ENNReal.tsum_le_tsum
  intro a
  rcases Nat.eq_zero_or_pos a with rfl | ha
  · have : {ω | generation (r ω) lam eta ks j i = 0} ∩ {ω | 0 < generation (r ω) lam eta ks j i} = ∅ := by
      ext ω; simp
    rw [this]; simp
  · calc _ ≤ P {ω | generation (r ω) lam eta ks j i = a} := measure_mono Set.inter_subset_left
      _ = 1 * P {ω | generation (r ω) lam eta ks j i = a} := (one_mul _).symm
      _ ≤ _ := by gcongr; exact_mod_cast ha

theorem extinct (hr : IdealPoisson P r) (lam eta : Fin m → ℝ) (ks : Nat → Key) (hk : Function.Injective ks)
    (hl : ∀ i, 0 ≤ lam i) (he : ∀ i, 0 ≤ eta i) (he1 : ∀ i, eta i < 1) :
    ∀ᵐ ω ∂P, ∃ K, ∀ i, generation (r ω) lam eta ks K i = 0 := by
  rw [ae_iff]
  have hb : ∀ j, P {ω | ¬ ∃ K, ∀ i, generation (r ω) lam eta ks K i = 0} ≤
      ENNReal.ofReal (∑ i, eta i ^ j * (lam i * (1 - eta i))) := by
    intro j
    rw [ENNReal.ofReal_sum_of_nonneg (fun i _ => mul_nonneg (pow_nonneg (he i) _)
      (mul_nonneg (hl i) (by linarith [he1 i])))]
    calc _ ≤ P (⋃ i, {ω | 0 < generation (r ω) lam eta ks j i}) := by
          apply measure_mono
          intro ω h
          simp only [Set.mem_setOf_eq, not_exists, not_forall] at h
          obtain ⟨i, hi⟩ := h j
          exact Set.mem_iUnion.2 ⟨i, Nat.pos_of_ne_zero hi⟩
      _ ≤ ∑ i, P {ω | 0 < generation (r ω) lam eta ks j i} := measure_iUnion_fintype_le _ _
      _ ≤ _ := Finset.sum_le_sum (fun i _ => gen_alive hr lam eta ks hk i (hl i) (he i) (he1 i).le j)
  have ht : Filter.Tendsto (fun j => ENNReal.ofReal (∑ i, eta i ^ j * (lam i * (1 - eta i)))) Filter.atTop (nhds 0) := by
    have h1 : Filter.Tendsto (fun j => ∑ i, eta i ^ j * (lam i * (1 - eta i))) Filter.atTop
        (nhds (∑ i : Fin m, 0 * (lam i * (1 - eta i)))) := by
      apply tendsto_finsetSum
      intro i _
      exact (tendsto_pow_atTop_nhds_zero_of_lt_one (he i) (he1 i)).mul_const _
    simpa using ENNReal.tendsto_ofReal h1
  exact le_antisymm (ge_of_tendsto' ht hb) bot_le

/-! ### The sampler -/

theorem seedAt_length (k : Key) (j : Nat) : (seedAt k j).length = k.length + j + 1 := by
  induction j generalizing k with
  | zero => simp [seedAt, Key.child]
  | succ j ih => rw [seedAt, ih]; simp [Key.child]; omega

theorem seedAt_injective (k : Key) : Function.Injective (seedAt k) := by
  intro a b h
  have := congrArg List.length h
  rw [seedAt_length, seedAt_length] at this
  omega

theorem gp_some (fuel : Nat) (r : Rng m) (lam eta : Fin m → ℝ) (s : St) (v : Fin m → Nat)
    (h : (generalizedPoisson fuel r lam eta s).1 = some v) :
    ∃ K, (∀ i, generation r lam eta (seedAt s.key) K i = 0) ∧
      ∀ i, v i = ∑ j ∈ Finset.range (K + 1), generation r lam eta (seedAt s.key) j i := by
  obtain ⟨K, h1, h2, h3⟩ := gpLoop_some r eta fuel _ _ _ v h
  refine ⟨K, fun i => ?_, fun i => ?_⟩
  · rw [generation_eq]
    exact h1 i
  · rw [h3 i, Finset.sum_range_succ']
    simp only [generation_eq]
    rw [add_comm]
    rfl

theorem gp_ends (r : Rng m) (lam eta : Fin m → ℝ) (s : St) (K : Nat)
    (h : ∀ i, generation r lam eta (seedAt s.key) K i = 0) :
    ∃ v, (generalizedPoisson (K + 1) r lam eta s).1 = some v := by
  apply gpLoop_ends
  intro i
  have := h i
  rw [generation_eq] at this
  exact this

theorem gen_stays (r : Rng m) (lam eta : Fin m → ℝ) (ks : Nat → Key) (i : Fin m)
    (hz : ∀ k l, l i = 0 → r.poisson k l i = 0) (L d : Nat) (h : generation r lam eta ks L i = 0) :
    generation r lam eta ks (L + d) i = 0 := by
  induction d with
  | zero => exact h
  | succ d ih =>
    change r.poisson (ks (L + d + 1)) (fun i => eta i * (generation r lam eta ks (L + d) i : ℝ)) i = 0
    apply hz
    rw [ih]
    simp

theorem gen_sum_stays (r : Rng m) (lam eta : Fin m → ℝ) (ks : Nat → Key) (i : Fin m)
    (hz : ∀ k l, l i = 0 → r.poisson k l i = 0) (L d : Nat) (h : generation r lam eta ks L i = 0) :
    ∑ j ∈ Finset.range (L + d + 1), generation r lam eta ks j i = ∑ j ∈ Finset.range (L + 1), generation r lam eta ks j i := by
  induction d with
  | zero => rfl
  | succ d ih =>
    rw [show L + (d + 1) + 1 = (L + d + 1) + 1 by omega, Finset.sum_range_succ, ih,
      show L + d + 1 = L + (d + 1) by omega, gen_stays r lam eta ks i hz L (d + 1) h, add_zero]

/-- A total of `n` is complete after generation `n`. -/
theorem total_iff (r : Rng m) (lam eta : Fin m → ℝ) (ks : Nat → Key) (i : Fin m)
    (hz : ∀ k l, l i = 0 → r.poisson k l i = 0) (K n : Nat) (h : generation r lam eta ks K i = 0) :
    ∑ j ∈ Finset.range (K + 1), generation r lam eta ks j i = n ↔
      generation r lam eta ks n i = 0 ∧ ∑ j ∈ Finset.range (n + 1), generation r lam eta ks j i = n := by
  have hpos : ∀ n, generation r lam eta ks n i ≠ 0 → n + 1 ≤ ∑ j ∈ Finset.range (n + 1), generation r lam eta ks j i := by
    intro n hn
    calc n + 1 = ∑ j ∈ Finset.range (n + 1), 1 := by simp
      _ ≤ _ := by
        apply Finset.sum_le_sum
        intro j hj
        by_contra hc
        have hj0 : generation r lam eta ks j i = 0 := by omega
        have := gen_stays r lam eta ks i hz j (n - j) hj0
        rw [show j + (n - j) = n by have := Finset.mem_range.1 hj; omega] at this
        exact hn this
  have hmono : ∀ a b, a ≤ b → ∑ j ∈ Finset.range (a + 1), generation r lam eta ks j i ≤
      ∑ j ∈ Finset.range (b + 1), generation r lam eta ks j i := by
    intro a b hab
    exact Finset.sum_le_sum_of_subset (Finset.range_subset_range.2 (by omega))
  have hext : ∀ a b, a ≤ b → generation r lam eta ks a i = 0 → ∑ j ∈ Finset.range (b + 1), generation r lam eta ks j i =
      ∑ j ∈ Finset.range (a + 1), generation r lam eta ks j i := by
    intro a b hab h0
    obtain ⟨d, rfl⟩ := Nat.exists_eq_add_of_le hab
    exact gen_sum_stays r lam eta ks i hz a d h0
  constructor
  · intro hs
    have hn : generation r lam eta ks n i = 0 := by
      by_contra hc
      have h1 := hpos n hc
      have hnK : n ≤ K := by
        by_contra hlt
        have := gen_stays r lam eta ks i hz K (n - K) h
        rw [show K + (n - K) = n by omega] at this
        exact hc this
      have := hmono n K hnK
      omega
    refine ⟨hn, ?_⟩
    rcases le_total n K with hnK | hnK
    · rw [← hext n K hnK hn, hs]
    · rw [hext K n hnK h, hs]
  · rintro ⟨h1, h2⟩
    rcases le_total n K with hnK | hnK
    · rw [hext n K hnK h1, h2]
    · rw [← hext K n hnK h, h2]

/-- The law of the total of the generations. -/
theorem total_law (hr : IdealPoisson P r) (lam eta : Fin m → ℝ) (ks : Nat → Key) (hk : Function.Injective ks)
    (i : Fin m) (hl : 0 ≤ lam i) (he : 0 ≤ eta i) (he1 : eta i ≤ 1) (n : Nat) :
    P {ω | generation (r ω) lam eta ks n i = 0 ∧ ∑ j ∈ Finset.range (n + 1), generation (r ω) lam eta ks j i = n} =
      ENNReal.ofReal (gpPmf (lam i * (1 - eta i)) (eta i) n) := by
  have h0 : 0 ≤ lam i * (1 - eta i) := mul_nonneg hl (by linarith)
  have hset : {ω | generation (r ω) lam eta ks n i = 0 ∧ ∑ j ∈ Finset.range (n + 1), generation (r ω) lam eta ks j i = n} =
      ⋃ a ∈ Finset.range (n + 1), Set.univ ∩ {ω | generation (r ω) lam eta ks 0 i = a} ∩
        tailEvent r lam eta ks i 0 n (n - a) := by
    ext ω
    simp only [tailEvent, Set.mem_inter_iff, Set.mem_setOf_eq, Set.mem_iUnion, Finset.mem_range, exists_prop, Set.mem_univ,
      true_and, Nat.zero_add]
    rw [Finset.sum_range_succ']
    constructor
    · rintro ⟨h2, h3⟩
      exact ⟨_, by omega, rfl, h2, by omega⟩
    · rintro ⟨b, h0, h1, h2, h3⟩
      exact ⟨h2, by omega⟩
  rw [hset, measure_biUnion_finset]
  · rw [← gpPmf_step, ENNReal.ofReal_sum_of_nonneg (fun b _ => mul_nonneg (poisW_nonneg h0 _)
      (gpPmf_nonneg (by positivity) he _))]
    apply Finset.sum_congr rfl
    intro a ha
    rw [tail_prob hr lam eta ks hk i he n 0 Set.univ MeasurableSet.univ a (n - a),
      ENNReal.ofReal_mul (poisW_nonneg h0 _), Set.univ_inter]
    congr 1
    · exact hr.law _ _ _ _ h0
    · rcases Nat.eq_zero_or_pos a with rfl | ha0
      · rw [tailW_zero_start]
        simp only [Nat.cast_zero, mul_zero, gpPmf_zero_start, Nat.sub_zero]
        split <;> simp
      · apply tailW_eq he
        have := Finset.mem_range.1 ha
        omega
  · intro b _ b' _ hne
    rw [Function.onFun, Set.disjoint_left]
    rintro ω ⟨⟨_, h1⟩, _⟩ ⟨⟨_, h2⟩, _⟩
    exact hne (h1.symm.trans h2)
  · intro b _
    refine MeasurableSet.inter (MeasurableSet.inter MeasurableSet.univ
      (past_le hr ks _ _ (gen_elem_meas r lam eta ks 0 i (fun x => x = b)))) ?_
    refine MeasurableSet.inter (past_le hr ks _ _ (gen_elem_meas r lam eta ks (0 + n) i (fun x => x = 0))) ?_
    have hm : Measurable (fun ω => ∑ k ∈ Finset.range n, generation (r ω) lam eta ks (0 + (k + 1)) i) := by
      apply Finset.measurable_sum
      intro k _
      apply measurable_to_countable'
      intro x
      exact past_le hr ks _ _ (gen_elem_meas r lam eta ks (0 + (k + 1)) i (fun y => y = x))
    exact hm (measurableSet_singleton _)

/-- The event that the total is complete and equal to `n`. -/
def totalSet (r : Ω → Rng m) (lam eta : Fin m → ℝ) (ks : Nat → Key) (i : Fin m) (n : Nat) : Set Ω :=
  {ω | generation (r ω) lam eta ks n i = 0 ∧ ∑ j ∈ Finset.range (n + 1), generation (r ω) lam eta ks j i = n}

theorem gen_measurable (hr : IdealPoisson P r) (lam eta : Fin m → ℝ) (ks : Nat → Key) (j : Nat) (i : Fin m) :
    Measurable (fun ω => generation (r ω) lam eta ks j i) := by
  apply measurable_to_countable'
  intro x
  exact past_le hr ks _ _ (gen_elem_meas r lam eta ks j i (fun y => y = x))

theorem totalSet_meas (hr : IdealPoisson P r) (lam eta : Fin m → ℝ) (ks : Nat → Key) (i : Fin m) (n : Nat) :
    MeasurableSet (totalSet r lam eta ks i n) := by
  refine MeasurableSet.inter (gen_measurable hr lam eta ks n i (measurableSet_singleton 0)) ?_
  exact (Finset.measurable_sum (f := fun j ω => generation (r ω) lam eta ks j i) (Finset.range (n + 1))
    (fun k _ => gen_measurable hr lam eta ks k i)) (measurableSet_singleton n)

theorem totalSet_disjoint (hr : IdealPoisson P r) (lam eta : Fin m → ℝ) (ks : Nat → Key) (i : Fin m) :
    Pairwise (Function.onFun Disjoint (totalSet r lam eta ks i)) := by
  intro a b hne
  rw [Function.onFun, Set.disjoint_left]
  rintro ω h1 h2
  have := (total_iff (r ω) lam eta ks i (fun k l h => hr.zero ω k l i h) a b h1.1).2 h2
  exact hne (h1.2.symm.trans this)

theorem totalSet_cover (hr : IdealPoisson P r) (lam eta : Fin m → ℝ) (ks : Nat → Key) (hk : Function.Injective ks)
    (hl : ∀ i, 0 ≤ lam i) (he : ∀ i, 0 ≤ eta i) (he1 : ∀ i, eta i < 1) (i : Fin m) :
    (⋃ n, totalSet r lam eta ks i n) =ᵐ[P] Set.univ := by
  rw [Filter.eventuallyEq_univ]
  filter_upwards [extinct hr lam eta ks hk hl he he1] with ω ⟨K, hK⟩
  exact Set.mem_iUnion.2 ⟨_, (total_iff (r ω) lam eta ks i (fun k l h => hr.zero ω k l i h) K _ (hK i)).1 rfl⟩

theorem total_sum [IsProbabilityMeasure P] (hr : IdealPoisson P r) (lam eta : Fin m → ℝ)
    (hl : ∀ i, 0 ≤ lam i) (he : ∀ i, 0 ≤ eta i) (he1 : ∀ i, eta i < 1) (i : Fin m) :
    ∑' n, ENNReal.ofReal (gpPmf (lam i * (1 - eta i)) (eta i) n) = 1 := by
  have hk := seedAt_injective []
  rw [← measure_univ (μ := P), ← measure_congr (totalSet_cover hr lam eta _ hk hl he he1 i),
    measure_iUnion (totalSet_disjoint hr lam eta _ i) (totalSet_meas hr lam eta _ i)]
  exact tsum_congr (fun n => (total_law hr lam eta _ hk i (hl i) (he i) (he1 i).le n).symm)

theorem total_mean (hr : IdealPoisson P r) (lam eta : Fin m → ℝ)
    (hl : ∀ i, 0 ≤ lam i) (he : ∀ i, 0 ≤ eta i) (he1 : ∀ i, eta i < 1) (i : Fin m) :
    ∑' n : Nat, (n : ℝ≥0∞) * ENNReal.ofReal (gpPmf (lam i * (1 - eta i)) (eta i) n) = ENNReal.ofReal (lam i) := by
  have hk := seedAt_injective []
  set ks := seedAt []
  have h0 : 0 ≤ lam i * (1 - eta i) := mul_nonneg (hl i) (by linarith [he1 i])
  have hI : ∫⁻ ω, ∑' j, (generation (r ω) lam eta ks j i : ℝ≥0∞) ∂P = ENNReal.ofReal (lam i) := by
    have hmj : ∀ j, Measurable (fun ω => (generation (r ω) lam eta ks j i : ℝ≥0∞)) := fun j =>
      measurable_from_nat.comp (gen_measurable hr lam eta ks j i)
    rw [lintegral_tsum (fun j => (hmj j).aemeasurable)]
    have hj : ∀ j, ∫⁻ ω, (generation (r ω) lam eta ks j i : ℝ≥0∞) ∂P = ENNReal.ofReal (eta i ^ j * (lam i * (1 - eta i))) := by
      intro j
      rw [← gen_mean hr lam eta ks hk i (hl i) (he i) (he1 i).le j,
        ← lintegral_map (f := fun a : ℕ => (a : ℝ≥0∞)) measurable_from_nat (gen_measurable hr lam eta ks j i),
        lintegral_countable']
      apply tsum_congr
      intro a
      rw [Measure.map_apply (gen_measurable hr lam eta ks j i) (measurableSet_singleton a)]
      rfl
    simp only [hj]
    have hs := (hasSum_geometric_of_lt_one (he i) (he1 i)).mul_right (lam i * (1 - eta i))
    rw [← ENNReal.ofReal_tsum_of_nonneg (fun j => mul_nonneg (pow_nonneg (he i) _) h0) hs.summable, hs.tsum_eq]
    congr 1
    have : 1 - eta i ≠ 0 := by linarith [he1 i]
    field_simp
  rw [← hI, ← setLIntegral_univ, ← setLIntegral_congr (totalSet_cover hr lam eta ks hk hl he he1 i),
    lintegral_iUnion (totalSet_meas hr lam eta ks i) (totalSet_disjoint hr lam eta ks i)]
  apply tsum_congr
  intro n
  rw [← total_law hr lam eta ks hk i (hl i) (he i) (he1 i).le n, ← setLIntegral_const]
  apply setLIntegral_congr_fun (totalSet_meas hr lam eta ks i n)
  intro ω hω
  have hz : ∀ k l, l i = 0 → (r ω).poisson k l i = 0 := fun k l h => hr.zero ω k l i h
  simp only
  rw [tsum_eq_sum (s := Finset.range (n + 1))]
  · rw [← Nat.cast_sum, hω.2]
  · intro j hj
    have hj' : n + 1 ≤ j := by simpa using hj
    have := gen_stays (r ω) lam eta ks i hz n (j - n) hω.1
    rw [show n + (j - n) = j by omega] at this
    rw [this, Nat.cast_zero]

/-! ### Ideal draws exist -/

/-- Cumulated Poisson weights. -/
noncomputable def poisCum (x : ℝ) (n : Nat) : ℝ := ∑ b ∈ Finset.range (n + 1), poisW x b

/-- The smallest count whose cumulated weight exceeds `u`. -/
noncomputable def poisQuantile (x u : ℝ) : Nat := sInf {n | u < poisCum x n}

theorem poisQuantile_eq (x u : ℝ) (n : Nat) : poisQuantile x u = n ↔
    (u < poisCum x n ∧ ∀ k < n, poisCum x k ≤ u) ∨ (n = 0 ∧ ∀ k, poisCum x k ≤ u) := by
  unfold poisQuantile
  by_cases hne : {n | u < poisCum x n}.Nonempty
  · have h1 := Nat.sInf_mem hne
    constructor
    · rintro rfl
      exact Or.inl ⟨h1, fun k hk => not_lt.1 (fun h => Nat.notMem_of_lt_sInf hk h)⟩
    · rintro (⟨h2, h3⟩ | ⟨_, h3⟩)
      · apply le_antisymm (Nat.sInf_le h2)
        by_contra hlt
        exact absurd h1 (not_lt.2 (h3 _ (not_le.1 hlt)))
      · obtain ⟨k, hk⟩ := hne
        exact absurd hk (not_lt.2 (h3 k))
  · rw [Set.not_nonempty_iff_eq_empty] at hne
    rw [hne, Nat.sInf_empty]
    have h3 : ∀ k, poisCum x k ≤ u := by
      intro k
      by_contra hk
      have : k ∈ {n | u < poisCum x n} := not_le.1 hk
      rw [hne] at this
      exact this
    constructor
    · rintro rfl; exact Or.inr ⟨rfl, h3⟩
    · rintro (⟨h2, _⟩ | ⟨h2, _⟩)
      · exact absurd h2 (not_lt.2 (h3 n))
      · exact h2.symm

theorem poisQuantile_meas (x : ℝ) : Measurable (poisQuantile x) := by
  apply measurable_to_countable'
  intro n
  have : poisQuantile x ⁻¹' {n} = ({u | u < poisCum x n} ∩ ⋂ k : Fin n, {u | poisCum x k ≤ u}) ∪
      ({_u | n = 0} ∩ ⋂ k, {u | poisCum x k ≤ u}) := by
    ext u
    simp only [Set.mem_preimage, Set.mem_singleton_iff, poisQuantile_eq, Set.mem_union, Set.mem_inter_iff, Set.mem_setOf_eq,
      Set.mem_iInter]
    constructor
    · rintro (⟨h1, h2⟩ | h)
      · exact Or.inl ⟨h1, fun k => h2 k k.2⟩
      · exact Or.inr h
    · rintro (⟨h1, h2⟩ | h)
      · exact Or.inl ⟨h1, fun k hk => h2 ⟨k, hk⟩⟩
      · exact Or.inr h
  rw [this]
  refine MeasurableSet.union (MeasurableSet.inter measurableSet_Iio (MeasurableSet.iInter (fun k => measurableSet_Ici)))
    (MeasurableSet.inter (MeasurableSet.const _) (MeasurableSet.iInter (fun k => measurableSet_Ici)))

theorem poisCum_mono {x : ℝ} (hx : 0 ≤ x) {a b : Nat} (h : a ≤ b) : poisCum x a ≤ poisCum x b :=
  Finset.sum_le_sum_of_subset_of_nonneg (Finset.range_subset_range.2 (by omega)) (fun _ _ _ => poisW_nonneg hx _)

theorem poisCum_le_one {x : ℝ} (hx : 0 ≤ x) (n : Nat) : poisCum x n ≤ 1 := by
  have h := hasSum_one_poissonMeasure ⟨x, hx⟩
  change HasSum (poisW x) 1 at h
  rw [← h.tsum_eq]
  exact h.summable.sum_le_tsum _ (fun b _ => poisW_nonneg hx b)

theorem poisCum_exceeds {x u : ℝ} (hx : 0 ≤ x) (hu : u < 1) : ∃ n, u < poisCum x n := by
  have h := hasSum_one_poissonMeasure ⟨x, hx⟩
  change HasSum (poisW x) 1 at h
  have ht := (h.tendsto_sum_nat).comp (Filter.tendsto_add_atTop_nat 1)
  exact ((ht.eventually_const_lt hu).exists)

theorem poisQuantile_law {x : ℝ} (hx : 0 ≤ x) (n : Nat) :
    (volume.restrict (Set.Ico (0 : ℝ) 1)) {u | poisQuantile x u = n} = ENNReal.ofReal (poisW x n) := by
  have hm : MeasurableSet {u | poisQuantile x u = n} := poisQuantile_meas x (measurableSet_singleton n)
  rw [Measure.restrict_apply hm]
  have hlow : ∀ u : ℝ, (∀ k < n, poisCum x k ≤ u) ∧ 0 ≤ u ↔ ∑ b ∈ Finset.range n, poisW x b ≤ u := by
    intro u
    constructor
    · rintro ⟨h, h0⟩
      cases n with
      | zero => simpa using h0
      | succ n => exact h n (Nat.lt_succ_self n)
    · intro h
      constructor
      · intro k hk
        refine le_trans ?_ h
        exact Finset.sum_le_sum_of_subset_of_nonneg (Finset.range_subset_range.2 (by omega)) (fun _ _ _ => poisW_nonneg hx _)
      · exact le_trans (Finset.sum_nonneg (fun _ _ => poisW_nonneg hx _)) h
  have hset : {u | poisQuantile x u = n} ∩ Set.Ico (0 : ℝ) 1 =
      Set.Ico (∑ b ∈ Finset.range n, poisW x b) (poisCum x n) := by
    ext u
    simp only [Set.mem_inter_iff, Set.mem_setOf_eq, Set.mem_Ico, poisQuantile_eq]
    constructor
    · rintro ⟨⟨h1, h2⟩ | ⟨_, h2⟩, h3, h4⟩
      · exact ⟨(hlow u).1 ⟨h2, h3⟩, h1⟩
      · obtain ⟨k, hk⟩ := poisCum_exceeds hx h4
        exact absurd hk (not_lt.2 (h2 k))
    · rintro ⟨h1, h2⟩
      obtain ⟨h3, h4⟩ := (hlow u).2 h1
      exact ⟨Or.inl ⟨h2, h3⟩, h4, lt_of_lt_of_le h2 (poisCum_le_one hx n)⟩
  rw [hset, Real.volume_Ico]
  congr 1
  rw [poisCum, Finset.sum_range_succ]
  ring

/-- A source whose Poisson draws are quantiles of uniform numbers, one per key and element. -/
noncomputable def idealRng (m : Nat) (ω : Key → Fin m → ℝ) : Rng m where
  normal := fun _ _ => 0
  uniform := ω
  trials := fun _ _ _ => 0
  poisson := fun k lam i => poisQuantile (lam i) (ω k i)
  gamma := fun _ _ _ => 0
  bernoulli := fun _ _ _ => false
  binomial := fun _ _ _ _ => 0
  normal1 := fun _ => 0
  numpyro := fun _ _ _ => 0

instance : IsProbabilityMeasure (volume.restrict (Set.Ico (0 : ℝ) 1)) := ⟨by simp⟩

instance (t : Nat) : IsProbabilityMeasure (trialsLaw t) := by unfold trialsLaw; infer_instance

/-- Independent uniform numbers for every key and element. -/
noncomputable def idealLaw (m : Nat) : Measure (Key → Fin m → ℝ) := Measure.infinitePi (fun _ : Key => trialsLaw m)

instance (m : Nat) : IsProbabilityMeasure (idealLaw m) := by unfold idealLaw; infer_instance

theorem ideal_exists (m : Nat) : IdealPoisson (idealLaw m) (idealRng m) where
  meas k lam i := (poisQuantile_meas _).comp ((measurable_pi_apply i).comp (measurable_pi_apply k))
  indep := iIndepFun_infinitePi (P := fun _ : Key => trialsLaw m)
    (X := fun (_ : Key) (u : Fin m → ℝ) (lam : Fin m → ℝ) (i : Fin m) => poisQuantile (lam i) (u i))
    (fun _ => measurable_pi_lambda _ (fun _ => measurable_pi_lambda _ (fun i =>
      (poisQuantile_meas _).comp (measurable_pi_apply i))))
  law k lam i n h := by
    have h1 : MeasurePreserving (fun ω : Key → Fin m → ℝ => ω k) (idealLaw m) (trialsLaw m) :=
      measurePreserving_eval_infinitePi _ k
    have h2 : MeasurePreserving (fun u : Fin m → ℝ => u i) (trialsLaw m) (volume.restrict (Set.Ico (0 : ℝ) 1)) :=
      measurePreserving_eval _ i
    have h3 := (h2.comp h1).measure_preimage
      (poisQuantile_meas (lam i) (measurableSet_singleton n)).nullMeasurableSet
    refine Eq.trans ?_ (h3.trans (poisQuantile_law h n))
    rfl
  zero ω k lam i h := by
    change poisQuantile (lam i) (ω k i) = 0
    rw [h, poisQuantile_eq]
    by_cases hu : ω k i < 1
    · left
      refine ⟨?_, fun k hk => absurd hk (Nat.not_lt_zero k)⟩
      simpa [poisCum, poisW] using hu
    · right
      refine ⟨rfl, fun k => (poisCum_le_one le_rfl k).trans (not_lt.1 hu)⟩

end Verif.Randgen
