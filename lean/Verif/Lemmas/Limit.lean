/-
Lemmas about sums of independent events and about convergence in probability, for C80.
-/
import Verif.Spec.Limit
import Verif.Lemmas.WholeChain
import Mathlib.Probability.IdentDistrib

namespace Verif.Llh
open Verif MeasureTheory ProbabilityTheory Filter Topology

/-! ### Convergence in probability to constants -/

section
variable {Ω : Type} [MeasurableSpace Ω] {P : Measure Ω}

theorem Approaches.of_eq {f g : Nat → Ω → ℝ} {c : ℝ} (h : Approaches P f c) (e : ∀ᶠ n in atTop, f n = g n) :
    Approaches P g c := by
  intro ε he
  refine (h ε he).congr' ?_
  filter_upwards [e] with n hn
  rw [hn]

theorem approaches_const (c : ℝ) : Approaches P (fun _ _ => c) c := by
  intro ε he
  have : ∀ n : Nat, P {ω : Ω | ε ≤ |c - c|} = 0 := by
    intro n
    simp [not_le.2 he]
  simp only [this 0]
  exact tendsto_const_nhds (α := ℕ) (f := atTop) (x := (0 : ENNReal))

/-- A function of finitely many converging quantities, continuous at the limits. -/
theorem Approaches.map {ι : Type} [Fintype ι] {f : ι → Nat → Ω → ℝ} {c : ι → ℝ} (h : ∀ i, Approaches P (f i) (c i))
    (g : (ι → ℝ) → ℝ) (hg : ContinuousAt g c) : Approaches P (fun n ω => g (fun i => f i n ω)) (g c) := by
  intro ε he
  obtain ⟨δ, hδ, hδ2⟩ := Metric.continuousAt_iff.1 hg ε he
  have hle : ∀ n, P {ω | ε ≤ |g (fun i => f i n ω) - g c|} ≤ ∑ i, P {ω | δ ≤ |f i n ω - c i|} := by
    intro n
    refine (measure_mono ?_).trans (measure_iUnion_fintype_le P _)
    intro ω hω
    by_contra hc
    simp only [Set.mem_iUnion, Set.mem_ofPred_eq, not_exists, not_le] at hc
    have : dist (fun i => f i n ω) c < δ := (dist_pi_lt_iff hδ).2 fun i => by rw [Real.dist_eq]; exact hc i
    have := hδ2 this
    rw [Real.dist_eq] at this
    exact absurd hω (not_le.2 this)
  have hs : Tendsto (fun n => ∑ i, P {ω | δ ≤ |f i n ω - c i|}) atTop (𝓝 0) := by
    have := tendsto_finsetSum (Finset.univ : Finset ι) (fun i _ => h i δ hδ)
    simpa using this
  exact tendsto_of_tendsto_of_tendsto_of_le_of_le tendsto_const_nhds hs (fun _ => bot_le) hle

theorem Approaches.eventually {f : Nat → Ω → ℝ} {c : ℝ} (h : Approaches P f c) {U : Set ℝ} (hU : U ∈ 𝓝 c) :
    Tendsto (fun n => P {ω | f n ω ∉ U}) atTop (𝓝 0) := by
  obtain ⟨ε, he, hs⟩ := Metric.mem_nhds_iff.1 hU
  refine tendsto_of_tendsto_of_tendsto_of_le_of_le tendsto_const_nhds (h ε he) (fun _ => bot_le) fun n =>
    measure_mono fun ω hω => ?_
  by_contra hc
  simp only [Set.mem_ofPred_eq, not_le] at hc
  exact hω (hs (by rw [Metric.mem_ball, Real.dist_eq]; exact hc))

end

/-! ### Sums over independent events -/

section
variable {Ω : Type} [MeasurableSpace Ω] {P : Measure Ω} {d : Nat} {law : Measure ((Fin d → ℝ) × ℝ)}
  {n : Nat} {X : Nat → Ω → Fin d → ℝ} {W : Nat → Ω → ℝ}

theorem ideal_ident (h : IdealEvents P law n X W) {g : (Fin d → ℝ) × ℝ → ℝ} (hg : Measurable g) {k : Nat} (hk : k < n) :
    IdentDistrib (fun ω => g (X k ω, W k ω)) g P law where
  aemeasurable_fst := (hg.comp (h.meas k hk)).aemeasurable
  aemeasurable_snd := hg.aemeasurable
  map_eq := by
    rw [← h.law k hk, Measure.map_map hg (h.meas k hk)]
    rfl

theorem ideal_mean (h : IdealEvents P law n X W) {g : (Fin d → ℝ) × ℝ → ℝ} (hg : Measurable g) (hi : Integrable g law) :
    ∫ ω, (∑ k ∈ Finset.range n, g (X k ω, W k ω)) ∂P = n * ∫ z, g z ∂law := by
  rw [integral_finsetSum]
  · rw [Finset.sum_congr rfl fun k hk => (ideal_ident h hg (Finset.mem_range.1 hk)).integral_eq]
    simp
  · intro k hk
    exact (ideal_ident h hg (Finset.mem_range.1 hk)).symm.integrable_snd hi

theorem ideal_deviation [IsProbabilityMeasure P] (hl : IsProbabilityMeasure law) (h : IdealEvents P law n X W)
    {g : (Fin d → ℝ) × ℝ → ℝ} (hg : Measurable g) (h2 : MemLp g 2 law) (hn : 1 ≤ n) {ε : ℝ} (he : 0 < ε) :
    P {ω | ε ≤ |(∑ k ∈ Finset.range n, g (X k ω, W k ω)) / n - ∫ z, g z ∂law|}
      ≤ ENNReal.ofReal ((∫ z, g z ^ 2 ∂law) / (n * ε ^ 2)) := by
  have hid := fun k hk => ideal_ident h hg (k := k) hk
  have hm : ∀ k ∈ Finset.range n, MemLp (fun ω => g (X k ω, W k ω)) 2 P := fun k hk =>
    (hid k (Finset.mem_range.1 hk)).symm.memLp_snd h2
  have hn0 : (0 : ℝ) < n := by exact_mod_cast hn
  have hsum : MemLp (fun ω => ∑ k ∈ Finset.range n, g (X k ω, W k ω)) 2 P := memLp_finsetSum _ hm
  have hmean := ideal_mean h hg (h2.integrable (by norm_num))
  have hvar : variance (fun ω => ∑ k ∈ Finset.range n, g (X k ω, W k ω)) P ≤ n * ∫ z, g z ^ 2 ∂law := by
    have e : (fun ω => ∑ k ∈ Finset.range n, g (X k ω, W k ω)) = ∑ k ∈ Finset.range n, fun ω => g (X k ω, W k ω) := by
      ext ω; simp
    rw [e, IndepFun.variance_sum hm (fun i hi j hj hij =>
      (h.indep i (Finset.mem_range.1 hi) j (Finset.mem_range.1 hj) hij).comp hg hg)]
    rw [Finset.sum_congr rfl fun k hk => (hid k (Finset.mem_range.1 hk)).variance_eq]
    have := variance_le_expectation_sq (μ := law) hg.aestronglyMeasurable
    simp only [Finset.sum_const, Finset.card_range, nsmul_eq_mul]
    exact mul_le_mul_of_nonneg_left this hn0.le
  have hc := meas_ge_le_variance_div_sq hsum (c := n * ε) (by positivity)
  rw [hmean] at hc
  have hset : {ω | ε ≤ |(∑ k ∈ Finset.range n, g (X k ω, W k ω)) / n - ∫ z, g z ∂law|}
      = {ω | n * ε ≤ |(∑ k ∈ Finset.range n, g (X k ω, W k ω)) - n * ∫ z, g z ∂law|} := by
    ext ω
    simp only [Set.mem_ofPred_eq]
    have e : (∑ k ∈ Finset.range n, g (X k ω, W k ω)) - n * ∫ z, g z ∂law
        = n * ((∑ k ∈ Finset.range n, g (X k ω, W k ω)) / n - ∫ z, g z ∂law) := by field_simp
    rw [e, abs_mul, abs_of_pos hn0, mul_le_mul_iff_right₀ hn0]
  rw [hset]
  refine hc.trans (ENNReal.ofReal_le_ofReal ?_)
  rw [div_le_div_iff₀ (by positivity) (by positivity)]
  have hq : 0 ≤ (n : ℝ) * ε ^ 2 := by positivity
  nlinarith [mul_le_mul_of_nonneg_right hvar hq]

end

/-- Means of independent events approach the expectation, with fresh events for every number of them. -/
theorem ideal_approaches {Ω : Type} [MeasurableSpace Ω] {P : Measure Ω} [IsProbabilityMeasure P] {d : Nat}
    {law : Measure ((Fin d → ℝ) × ℝ)} (hl : IsProbabilityMeasure law) {X : Nat → Nat → Ω → Fin d → ℝ}
    {W : Nat → Nat → Ω → ℝ} (h : ∀ n, IdealEvents P law n (X n) (W n)) {g : (Fin d → ℝ) × ℝ → ℝ} (hg : Measurable g)
    (h2 : MemLp g 2 law) :
    Approaches P (fun n ω => (∑ k ∈ Finset.range n, g (X n k ω, W n k ω)) / n) (∫ z, g z ∂law) := by
  intro ε he
  have hb : ∀ᶠ n : Nat in atTop, P {ω | ε ≤ |(∑ k ∈ Finset.range n, g (X n k ω, W n k ω)) / n - ∫ z, g z ∂law|}
      ≤ ENNReal.ofReal ((∫ z, g z ^ 2 ∂law) / (n * ε ^ 2)) := by
    filter_upwards [eventually_ge_atTop 1] with n hn
    exact ideal_deviation hl (h n) hg h2 hn he
  have ht : Tendsto (fun n : Nat => ENNReal.ofReal ((∫ z, g z ^ 2 ∂law) / (n * ε ^ 2))) atTop (𝓝 0) := by
    rw [← ENNReal.ofReal_zero]
    refine ENNReal.tendsto_ofReal ?_
    have : Tendsto (fun n : Nat => (n : ℝ) * ε ^ 2) atTop atTop :=
      tendsto_natCast_atTop_atTop.atTop_mul_const (by positivity)
    exact tendsto_const_nhds.div_atTop this
  exact tendsto_of_tendsto_of_tendsto_of_le_of_le' tendsto_const_nhds ht (Eventually.of_forall fun _ => bot_le) hb

/-! ### The bins are measurable, and the content of a sample is a sum over its events -/

theorem posRow_get {d : Nat} (x : Fin d → ℝ) (c : Nat) (hc : c < d) : (posRow x)[c]? = some (some (x ⟨c, hc⟩)) := by
  simp [posRow, hc]

theorem measurable_inUpper {d : Nat} (e : List ℝ) (j c : Nat) (hc : c < d) :
    MeasurableSet {x : Fin d → ℝ | InUpper e j (posRow x) c} := by
  have hm : Measurable fun x : Fin d → ℝ => x ⟨c, hc⟩ := measurable_pi_apply _
  cases h1 : e[j]? with
  | none => simp [InUpper, h1]
  | some lo =>
    cases h2 : e[j + 1]? with
    | none => simp [InUpper, h2]
    | some hi =>
      have : {x : Fin d → ℝ | InUpper e j (posRow x) c} = {x | lo < x ⟨c, hc⟩} ∩ {x | x ⟨c, hc⟩ ≤ hi} := by
        ext x
        simp [InUpper, h1, h2, posRow_get x c hc]
      rw [this]
      exact (measurableSet_lt measurable_const hm).inter (measurableSet_le hm measurable_const)

theorem measurable_inLower {d : Nat} (e : List ℝ) (j c : Nat) (hc : c < d) :
    MeasurableSet {x : Fin d → ℝ | InLower e j (posRow x) c} := by
  have hm : Measurable fun x : Fin d → ℝ => x ⟨c, hc⟩ := measurable_pi_apply _
  cases h1 : e[j]? with
  | none => simp [InLower, h1]
  | some lo =>
    cases h2 : e[j + 1]? with
    | none => simp [InLower, h2]
    | some hi =>
      have : {x : Fin d → ℝ | InLower e j (posRow x) c} = {x | lo ≤ x ⟨c, hc⟩} ∩
          ({x | x ⟨c, hc⟩ < hi} ∪ ({_x | j + 2 = e.length} ∩ {x | x ⟨c, hc⟩ = hi})) := by
        ext x
        simp [InLower, h1, h2, posRow_get x c hc]
      rw [this]
      exact (measurableSet_le measurable_const hm).inter ((measurableSet_lt hm measurable_const).union
        ((MeasurableSet.const _).inter (measurableSet_eq_fun hm measurable_const)))

theorem measurable_eventIn (bins : Comp.Bins ℝ) (b : Nat × Nat) :
    MeasurableSet {x : Fin bins.dims → ℝ | EventIn bins b.1 b.2 (posRow x)} := by
  cases bins with
  | irreg1 e => exact measurable_inUpper e b.2 0 (by simp [Comp.Bins.dims])
  | mesh1 e => exact measurable_inLower e b.2 0 (by simp [Comp.Bins.dims])
  | mesh2 x y =>
    exact (measurable_inLower x b.1 0 (by simp [Comp.Bins.dims])).inter (measurable_inLower y b.2 1 (by simp [Comp.Bins.dims]))
  | irreg2 x y =>
    have hset : MeasurableSet {z : Fin 2 → ℝ | ∃ r, y[b.1]? = some r ∧ InUpper r b.2 (posRow z) 1} := by
      cases h : y[b.1]? with
      | none => simp
      | some r => simpa using measurable_inUpper (d := 2) r b.2 1 (by norm_num)
    exact (measurable_inUpper x b.1 0 (by simp [Comp.Bins.dims])).inter hset
  | irregOther n => simp [EventIn]
  | unset n => simp [EventIn]

theorem measurable_weightIn (bins : Comp.Bins ℝ) (b : Nat × Nat) : Measurable (weightIn bins b) := by
  unfold weightIn
  exact Measurable.ite ((measurable_eventIn bins b).preimage measurable_fst) measurable_snd measurable_const

theorem weightIn_memLp (bins : Comp.Bins ℝ) (law : Measure ((Fin bins.dims → ℝ) × ℝ)) (hl : EventLaw law) (b : Nat × Nat) :
    MemLp (weightIn bins b) 2 law := by
  refine hl.square.mono (measurable_weightIn bins b).aestronglyMeasurable (Eventually.of_forall fun z => ?_)
  unfold weightIn
  split
  · exact le_refl _
  · simp

theorem acceptance_nonneg (bins : Comp.Bins ℝ) (law : Measure ((Fin bins.dims → ℝ) × ℝ)) (hl : EventLaw law) (b : Nat × Nat) :
    0 ≤ acceptance bins law b := by
  refine integral_nonneg_of_ae ?_
  filter_upwards [hl.nonneg] with z hz
  unfold weightIn
  split
  · exact hz
  · exact le_refl _

theorem eventRows_sampleOf (cfg : Comp.HistCfg ℝ) (ha : Ascending cfg.bins) (rate : ℝ) (n : Nat)
    (X : Nat → Fin cfg.bins.dims → ℝ) (W : Nat → ℝ) :
    eventRows (sampleOf cfg rate n X W).cols = (List.range n).map (fun k => posRow (X k)) := by
  unfold sampleOf
  dsimp only
  obtain ⟨bins, nt, ae, en, ns⟩ := cfg
  cases bins with
  | irreg1 e => simp [eventRows, Comp.Bins.dims, posRow, List.ofFn_succ]
  | mesh1 e => simp [eventRows, Comp.Bins.dims, posRow, List.ofFn_succ]
  | irreg2 x y =>
    simp [eventRows, Comp.Bins.dims, posRow, List.ofFn_succ]
  | mesh2 x y =>
    simp [eventRows, Comp.Bins.dims, posRow, List.ofFn_succ]
  | irregOther n => exact absurd ha id
  | unset n => exact absurd ha id

theorem weightOf_range {S : Type} (p : S → Prop) [DecidablePred p] (n : Nat) (f : Nat → S) (w : Nat → ℝ) :
    Hist.weightOf p (((List.range n).map f).zip ((List.range n).map w))
      = ∑ k ∈ Finset.range n, if p (f k) then w k else 0 := by
  induction n with
  | zero => simp [Hist.weightOf]
  | succ n ih =>
    rw [Finset.sum_range_succ, ← ih]
    simp only [List.range_succ, List.map_append, List.map_cons, List.map_nil]
    rw [List.zip_append (by simp)]
    unfold Hist.weightOf
    rw [List.filter_append, List.map_append, List.sum_append]
    congr 1
    by_cases h : p (f n) <;> simp [h]

theorem sum_range_list (n : Nat) (w : Nat → ℝ) : ((List.range n).map w).sum = ∑ k ∈ Finset.range n, w k := by
  induction n with
  | zero => simp
  | succ n ih => simp [List.range_succ, ih, Finset.sum_range_succ]

open Classical in
theorem content_sampleOf (cfg : Comp.HistCfg ℝ) (ha : Ascending cfg.bins) (rate : ℝ) (n : Nat)
    (X : Nat → Fin cfg.bins.dims → ℝ) (W : Nat → ℝ) (b : Nat × Nat) :
    (sampleOf cfg rate n X W).content b =
      if cfg.addEps then max (∑ k ∈ Finset.range n, weightIn cfg.bins b (X k, W k))
        (1 / 10000000000 + (∑ k ∈ Finset.range n, W k) / n)
      else ∑ k ∈ Finset.range n, weightIn cfg.bins b (X k, W k) := by
  have e := eventRows_sampleOf cfg ha rate n X W
  have h1 := weightOf_range (EventIn cfg.bins b.1 b.2) n (fun k => posRow (X k)) W
  have h2 := sum_range_list n W
  have h3 : ((List.range n).map W).length = n := by simp
  unfold Sample.content
  rw [e]
  show (if cfg.addEps = true then max (Hist.weightOf (EventIn cfg.bins b.1 b.2) (((List.range n).map fun k => posRow (X k)).zip ((List.range n).map W)))
    (1 / 10000000000 + ((List.range n).map W).sum / (((List.range n).map W).length : ℝ)) else
    Hist.weightOf (EventIn cfg.bins b.1 b.2) (((List.range n).map fun k => posRow (X k)).zip ((List.range n).map W))) = _
  rw [h2, h3]
  unfold weightIn
  rw [h1]

/-! ### The predicted number of events in the limit -/

section
variable {Ω : Type} [MeasurableSpace Ω] {P : Measure Ω}

theorem Approaches.map2 {f g : Nat → Ω → ℝ} {a b : ℝ} (hf : Approaches P f a) (hg : Approaches P g b) (u : ℝ → ℝ → ℝ)
    (hu : ContinuousAt (fun p : ℝ × ℝ => u p.1 p.2) (a, b)) : Approaches P (fun n ω => u (f n ω) (g n ω)) (u a b) := by
  have h := Approaches.map (P := P) (ι := Bool) (f := fun i => cond i f g) (c := fun i => cond i a b)
    (fun i => by cases i <;> assumption) (fun v => u (v true) (v false)) (by
      refine ContinuousAt.comp (f := fun v : Bool → ℝ => (v true, v false)) (g := fun p : ℝ × ℝ => u p.1 p.2) ?_ ?_
      · exact hu
      · exact ((continuous_apply true).prodMk (continuous_apply false)).continuousAt)
  exact h

theorem Approaches.map1 {f : Nat → Ω → ℝ} {a : ℝ} (hf : Approaches P f a) (u : ℝ → ℝ)
    (hu : ContinuousAt u a) : Approaches P (fun n ω => u (f n ω)) (u a) :=
  hf.map2 hf (fun x _ => u x) (ContinuousAt.comp (f := Prod.fst) (x := (a, a)) hu continuousAt_fst)

theorem Approaches.add {f g : Nat → Ω → ℝ} {a b : ℝ} (hf : Approaches P f a) (hg : Approaches P g b) :
    Approaches P (fun n ω => f n ω + g n ω) (a + b) :=
  hf.map2 hg (fun x y => x + y) continuous_add.continuousAt

theorem Approaches.mul {f g : Nat → Ω → ℝ} {a b : ℝ} (hf : Approaches P f a) (hg : Approaches P g b) :
    Approaches P (fun n ω => f n ω * g n ω) (a * b) :=
  hf.map2 hg (fun x y => x * y) continuous_mul.continuousAt

theorem Approaches.max {f g : Nat → Ω → ℝ} {a b : ℝ} (hf : Approaches P f a) (hg : Approaches P g b) :
    Approaches P (fun n ω => max (f n ω) (g n ω)) (max a b) :=
  hf.map2 hg (fun x y => Max.max x y) continuous_max.continuousAt

theorem Approaches.div {f g : Nat → Ω → ℝ} {a b : ℝ} (hf : Approaches P f a) (hg : Approaches P g b) (hb : b ≠ 0) :
    Approaches P (fun n ω => f n ω / g n ω) (a / b) :=
  hf.map2 hg (fun x y => x / y) (ContinuousAt.div continuousAt_fst continuousAt_snd hb)

theorem Approaches.list_sum {α : Type} (l : List α) {f : α → Nat → Ω → ℝ} {a : α → ℝ} (h : ∀ x ∈ l, Approaches P (f x) (a x)) :
    Approaches P (fun n ω => (l.map (fun x => f x n ω)).sum) (l.map a).sum := by
  induction l with
  | nil => exact approaches_const 0
  | cons x l ih =>
    simp only [List.map_cons, List.sum_cons]
    exact (h x (by simp)).add (ih fun y hy => h y (by simp [hy]))

theorem approaches_det {u : Nat → ℝ} {c : ℝ} (h : Tendsto u atTop (𝓝 c)) : Approaches P (fun n _ => u n) c := by
  intro ε he
  have : ∀ᶠ n in atTop, P {_ω : Ω | ε ≤ |u n - c|} = 0 := by
    filter_upwards [(Metric.tendsto_nhds.1 h) ε he] with n hn
    rw [Real.dist_eq] at hn
    simp [not_le.2 hn]
  exact tendsto_const_nhds.congr' (this.mono fun n hn => hn.symm)

variable [IsProbabilityMeasure P]

theorem content_approaches (cfg : Comp.HistCfg ℝ) (ha : Ascending cfg.bins) (rate : ℝ)
    (law : Measure ((Fin cfg.bins.dims → ℝ) × ℝ)) (hl : EventLaw law) (X : Nat → Nat → Ω → Fin cfg.bins.dims → ℝ)
    (W : Nat → Nat → Ω → ℝ) (h : ∀ n, IdealEvents P law n (X n) (W n)) (b : Nat × Nat) :
    Approaches P (fun n ω => (sampleOf cfg rate n (fun k => X n k ω) (fun k => W n k ω)).content b / n)
      (acceptance cfg.bins law b) := by
  have h1 := ideal_approaches hl.prob h (measurable_weightIn cfg.bins b) (weightIn_memLp cfg.bins law hl b)
  have h2 := ideal_approaches hl.prob h measurable_snd hl.square
  cases he : cfg.addEps with
  | false =>
    refine h1.of_eq (Eventually.of_forall fun n => ?_)
    ext ω
    rw [content_sampleOf cfg ha, if_neg (by rw [he]; decide)]
  | true =>
    have h0 : Tendsto (fun n : Nat => 1 / (n : ℝ)) atTop (𝓝 0) := tendsto_one_div_atTop_nhds_zero_nat
    have h3 := ((approaches_const (P := P) (1 / 10000000000)).add h2).mul (approaches_det (P := P) h0)
    have h4 := h1.max h3
    have hnn : 0 ≤ ∫ z, weightIn cfg.bins b z ∂law := acceptance_nonneg cfg.bins law hl b
    rw [mul_zero, max_eq_left hnn] at h4
    refine h4.of_eq ?_
    filter_upwards [eventually_ge_atTop 1] with n hn
    ext ω
    have hn0 : (0 : ℝ) < n := by exact_mod_cast hn
    rw [content_sampleOf cfg ha, if_pos he, mul_one_div, max_div_div_right hn0.le]

theorem expected_approaches (cfg : Comp.HistCfg ℝ) (ha : Ascending cfg.bins) (rate : ℝ)
    (law : Measure ((Fin cfg.bins.dims → ℝ) × ℝ)) (hl : EventLaw law) (hok : LimitOk cfg law)
    (X : Nat → Nat → Ω → Fin cfg.bins.dims → ℝ) (W : Nat → Nat → Ω → ℝ) (h : ∀ n, IdealEvents P law n (X n) (W n))
    (b : Nat × Nat) :
    Approaches P (fun n ω => (sampleOf cfg rate n (fun k => X n k ω) (fun k => W n k ω)).expected b)
      (trueExpected cfg rate law b) := by
  have hc := fun b => content_approaches cfg ha rate law hl X W h b
  rcases hok with ⟨h1, h2⟩ | ⟨h1, h2⟩
  · have hs := Approaches.list_sum (binList cfg.bins) (fun b _ => hc b)
    have := ((approaches_const (P := P) rate).mul (hc b)).div hs h2.ne'
    unfold trueExpected
    rw [if_pos h1]
    refine this.of_eq ?_
    filter_upwards [eventually_ge_atTop 1] with n hn
    have hn0 : (n : ℝ) ≠ 0 := by positivity
    ext ω
    unfold Sample.expected Sample.norm
    rw [if_pos (show (sampleOf cfg rate n (fun k => X n k ω) (fun k => W n k ω)).cfg.normType = "on_pdf" from h1)]
    have e : ∀ l : List (Nat × Nat), (l.map fun b =>
        (sampleOf cfg rate n (fun k => X n k ω) (fun k => W n k ω)).content b / n).sum
        = (l.map (sampleOf cfg rate n (fun k => X n k ω) (fun k => W n k ω)).content).sum / n := by
      intro l
      induction l with
      | nil => simp
      | cons x l ih => simp only [List.map_cons, List.sum_cons, ih, add_div]
    rw [e, ← mul_div_assoc, div_div_div_cancel_right₀ hn0]
    rfl
  · have := (approaches_const (P := P) rate).mul (hc b)
    unfold trueExpected
    have hne : ¬ cfg.normType = "on_pdf" := by rw [h1]; decide
    rw [if_neg hne]
    refine this.of_eq (Eventually.of_forall fun n => ?_)
    ext ω
    unfold Sample.expected Sample.norm
    rw [if_neg (show ¬ (sampleOf cfg rate n (fun k => X n k ω) (fun k => W n k ω)).cfg.normType = "on_pdf" from hne),
      if_neg (show ¬ (sampleOf cfg rate n (fun k => X n k ω) (fun k => W n k ω)).cfg.energy = .bootstrap by
        show ¬ cfg.energy = _; rw [h2]; decide), ← mul_div_assoc]
    rfl

theorem normalisable_likely (cfg : Comp.HistCfg ℝ) (ha : Ascending cfg.bins) (rate : ℝ)
    (law : Measure ((Fin cfg.bins.dims → ℝ) × ℝ)) (hl : EventLaw law) (hok : LimitOk cfg law)
    (X : Nat → Nat → Ω → Fin cfg.bins.dims → ℝ) (W : Nat → Nat → Ω → ℝ) (h : ∀ n, IdealEvents P law n (X n) (W n)) :
    Tendsto (fun n => P {ω | ¬ (sampleOf cfg rate n (fun k => X n k ω) (fun k => W n k ω)).Normalisable}) atTop (𝓝 0) := by
  rcases hok with ⟨h1, h2⟩ | ⟨h1, h2⟩
  · have hs := Approaches.list_sum (binList cfg.bins) (fun b _ => content_approaches cfg ha rate law hl X W h b)
    have := hs.eventually (Ioi_mem_nhds h2)
    refine tendsto_of_tendsto_of_tendsto_of_le_of_le tendsto_const_nhds this (fun _ => bot_le) fun n =>
      measure_mono fun ω hω => ?_
    intro hc
    refine hω ⟨.inl h1, fun hz => ?_⟩
    unfold Sample.norm at hz
    rw [if_pos (show (sampleOf cfg rate n (fun k => X n k ω) (fun k => W n k ω)).cfg.normType = "on_pdf" from h1)] at hz
    rw [Set.mem_Ioi, show (List.map (fun b => (sampleOf cfg rate n (fun k => X n k ω) (fun k => W n k ω)).content b / (n : ℝ))
      (binList cfg.bins)).sum = (List.map (sampleOf cfg rate n (fun k => X n k ω) (fun k => W n k ω)).content
      (binList cfg.bins)).sum / n from ?_] at hc
    · have hz' : (List.map (sampleOf cfg rate n (fun k => X n k ω) (fun k => W n k ω)).content
        (binList cfg.bins)).sum = 0 := hz
      rw [hz', zero_div] at hc
      exact lt_irrefl _ hc
    · generalize binList cfg.bins = l
      induction l with
      | nil => simp
      | cons x l ih => simp only [List.map_cons, List.sum_cons, ih, add_div]
  · have : ∀ᶠ n in atTop, P {ω | ¬ (sampleOf cfg rate n (fun k => X n k ω) (fun k => W n k ω)).Normalisable} = 0 := by
      filter_upwards [eventually_ge_atTop 1] with n hn
      have hn0 : (n : ℝ) ≠ 0 := by positivity
      have : {ω | ¬ (sampleOf cfg rate n (fun k => X n k ω) (fun k => W n k ω)).Normalisable} = ∅ := by
        ext ω
        simp only [Set.mem_ofPred_eq, Set.mem_empty_iff_false, iff_false, not_not]
        refine ⟨.inr ⟨h1, .inl h2⟩, ?_⟩
        unfold Sample.norm
        rw [if_neg (show ¬ (sampleOf cfg rate n (fun k => X n k ω) (fun k => W n k ω)).cfg.normType = "on_pdf" by
          show ¬ cfg.normType = _; rw [h1]; decide),
          if_neg (show ¬ (sampleOf cfg rate n (fun k => X n k ω) (fun k => W n k ω)).cfg.energy = .bootstrap by
          show ¬ cfg.energy = _; rw [h2]; decide)]
        exact hn0
      rw [this, measure_empty]
    exact tendsto_const_nhds.congr' (this.mono fun n hn => hn.symm)

theorem Source.expected_approaches (src : Source Ω) (h : src.Ideal P) (b : Nat × Nat) :
    Approaches P (fun n ω => (src.sample n ω).expected b) (src.limit b) := by
  cases src with
  | events cfg rate law X W => exact Llh.expected_approaches cfg h.ascending rate law h.eventLaw h.ok X W h.events b
  | table s =>
    simp only [Source.sample, Source.limit]
    exact approaches_const (P := P) (s.expected b)

theorem Source.normalisable_likely (src : Source Ω) (h : src.Ideal P) :
    Tendsto (fun n => P {ω | ¬ (src.sample n ω).Normalisable}) atTop (𝓝 0) := by
  cases src with
  | events cfg rate law X W => exact Llh.normalisable_likely cfg h.ascending rate law h.eventLaw h.ok X W h.events
  | table s =>
    have : {_ω : Ω | ¬ s.Normalisable} = ∅ := by
      ext ω
      simp only [Set.mem_ofPred_eq, Set.mem_empty_iff_false, iff_false, not_not]
      exact h
    simp only [Source.sample, this, measure_empty]
    exact tendsto_const_nhds

theorem sources_expected (srcs : List (Source Ω)) (h : ∀ s ∈ srcs, s.Ideal P) (b : Nat × Nat) :
    Approaches P (fun n ω => expectedIn (srcs.map (fun s => s.sample n ω)) b) (limitIn srcs b) := by
  have := Approaches.list_sum (P := P) srcs (f := fun s n ω => (s.sample n ω).expected b) (a := fun s => s.limit b)
    (fun s hs => s.expected_approaches (h s hs) b)
  unfold expectedIn limitIn
  simpa only [List.map_map, Function.comp_def] using this

theorem sources_logL (bins : Comp.Bins ℝ) (data : List (List (Option ℝ))) (srcs : List (Source Ω)) (h : ∀ s ∈ srcs, s.Ideal P)
    (hpos : ∀ b ∈ binList bins, 0 < limitIn srcs b) :
    Approaches P (fun n ω => binnedLogL bins data (srcs.map (fun s => s.sample n ω))) (trueLogL bins data srcs) := by
  unfold binnedLogL trueLogL
  refine Approaches.list_sum (binList bins) (f := fun b n ω => countIn bins data b *
    Real.log (expectedIn (srcs.map (fun s => s.sample n ω)) b) - expectedIn (srcs.map (fun s => s.sample n ω)) b) fun b hb => ?_
  refine (sources_expected srcs h b).map1 (fun x => countIn bins data b * Real.log x - x) ?_
  exact (continuousAt_const.mul (Real.continuousAt_log (hpos b hb).ne')).sub continuousAt_id

theorem tendsto_list_sum_zero {α : Type} (l : List α) (f : α → Nat → ENNReal) (h : ∀ x ∈ l, Tendsto (f x) atTop (𝓝 0)) :
    Tendsto (fun n => (l.map (fun x => f x n)).sum) atTop (𝓝 0) := by
  induction l with
  | nil => simp
  | cons x l ih =>
    have := (h x (by simp)).add (ih fun y hy => h y (by simp [hy]))
    simpa using this

omit [IsProbabilityMeasure P] in
theorem measure_exists_list_le {α : Type} (l : List α) (p : α → Ω → Prop) :
    P {ω | ∃ x ∈ l, p x ω} ≤ (l.map (fun x => P {ω | p x ω})).sum := by
  induction l with
  | nil => simp
  | cons x l ih =>
    have : {ω | ∃ y ∈ x :: l, p y ω} = {ω | p x ω} ∪ {ω | ∃ y ∈ l, p y ω} := by
      ext ω; simp
    rw [this, List.map_cons, List.sum_cons]
    exact (measure_union_le _ _).trans (by gcongr)

theorem expected_positive (srcs : List (Source Ω)) (hs : ∀ s ∈ srcs, s.Ideal P) (c : Nat × Nat) (hpos : 0 < limitIn srcs c) :
    Tendsto (fun n => P {ω | ¬ 0 < expectedIn (srcs.map (fun s => s.sample n ω)) c}) atTop (𝓝 0) := by
  have h := sources_expected srcs hs c
  have hU : Set.Ioi (0 : ℝ) ∈ 𝓝 (limitIn srcs c) := Ioi_mem_nhds hpos
  exact h.eventually hU

/-- With growing batches the samples can be normalised, every bin expects events and the log likelihood is close to its limit,
with probability approaching one. -/
theorem sources_good (bins : Comp.Bins ℝ) (data : List (List (Option ℝ))) (srcs : List (Source Ω)) (hs : ∀ s ∈ srcs, s.Ideal P)
    (hpos : ∀ b ∈ binList bins, 0 < limitIn srcs b) (ε : ℝ) (hε : 0 < ε) :
    Tendsto (fun n => P {ω | ¬ ((∀ s ∈ srcs, (s.sample n ω).Normalisable) ∧
      (∀ c ∈ binList bins, 0 < expectedIn (srcs.map (fun s => s.sample n ω)) c) ∧
      |binnedLogL bins data (srcs.map (fun s => s.sample n ω)) - trueLogL bins data srcs| < ε)}) atTop (𝓝 0) := by
  have h1 := sources_logL bins data srcs hs hpos ε hε
  have h2 := tendsto_list_sum_zero srcs (fun s n => P {ω | ¬ (s.sample n ω).Normalisable})
    (fun s hm => s.normalisable_likely (hs s hm))
  have h3 := tendsto_list_sum_zero (binList bins)
    (fun c n => P {ω | ¬ 0 < expectedIn (srcs.map (fun s => s.sample n ω)) c})
    (fun c hc => expected_positive srcs hs c (hpos c hc))
  have h4 := (h1.add h2).add h3
  rw [add_zero, add_zero] at h4
  refine tendsto_of_tendsto_of_tendsto_of_le_of_le tendsto_const_nhds h4 (fun _ => bot_le) fun n => ?_
  have hsub : {ω | ¬ ((∀ s ∈ srcs, (s.sample n ω).Normalisable) ∧
      (∀ c ∈ binList bins, 0 < expectedIn (srcs.map (fun s => s.sample n ω)) c) ∧
      |binnedLogL bins data (srcs.map (fun s => s.sample n ω)) - trueLogL bins data srcs| < ε)} ⊆
      ({ω | ε ≤ |binnedLogL bins data (srcs.map (fun s => s.sample n ω)) - trueLogL bins data srcs|} ∪
        {ω | ∃ s ∈ srcs, ¬ (s.sample n ω).Normalisable}) ∪
      {ω | ∃ c ∈ binList bins, ¬ 0 < expectedIn (srcs.map (fun s => s.sample n ω)) c} := by
    intro ω hω
    by_contra hc
    simp only [Set.mem_union, Set.mem_ofPred_eq, not_or, not_le, not_exists, not_and, not_not] at hc
    obtain ⟨⟨c1, c2⟩, c3⟩ := hc
    exact hω ⟨c2, fun c hc => c3 c hc, c1⟩
  refine (measure_mono hsub).trans ((measure_union_le _ _).trans ?_)
  refine add_le_add ((measure_union_le _ _).trans (add_le_add (le_refl _) ?_)) ?_
  · exact measure_exists_list_le srcs (fun s ω => ¬ (s.sample n ω).Normalisable)
  · exact measure_exists_list_le (binList bins) (fun c ω => ¬ 0 < expectedIn (srcs.map (fun s => s.sample n ω)) c)

/-! ### The logarithm of a random number -/

theorem log_mean {f : Ω → ℝ} (hp : ∀ᵐ ω ∂P, 0 < f ω) (hi : Integrable f P) (hlog : Integrable (fun ω => Real.log (f ω)) P) :
    ∫ ω, Real.log (f ω) ∂P ≤ Real.log (∫ ω, f ω ∂P) ∧
      ((¬ ∀ᵐ ω ∂P, f ω = ∫ ω', f ω' ∂P) → ∫ ω, Real.log (f ω) ∂P < Real.log (∫ ω, f ω ∂P)) := by
  set m := ∫ ω, f ω ∂P with hm
  have hm0 : 0 < m := by
    rw [hm, integral_pos_iff_support_of_nonneg_ae (hp.mono fun ω h => h.le) hi]
    have : P (Function.support f)ᶜ = 0 := by
      rw [← mem_ae_iff]
      filter_upwards [hp] with ω h using h.ne'
    have h1 : P (Function.support f) = 1 := by
      refine le_antisymm prob_le_one ?_
      have := measure_union_le (μ := P) (Function.support f) (Function.support f)ᶜ
      rw [Set.union_compl_self, measure_univ] at this
      rw [‹P (Function.support f)ᶜ = 0›, add_zero] at this
      exact this
    rw [h1]
    exact one_pos
  have hint : Integrable (fun ω => f ω / m - 1 - (Real.log (f ω) - Real.log m)) P :=
    ((hi.div_const m).sub (integrable_const _)).sub (hlog.sub (integrable_const _))
  have hval : ∫ ω, (f ω / m - 1 - (Real.log (f ω) - Real.log m)) ∂P = Real.log m - ∫ ω, Real.log (f ω) ∂P := by
    have a1 : Integrable (fun ω => f ω / m - 1) P := (hi.div_const m).sub (integrable_const 1)
    have a2 : Integrable (fun ω => Real.log (f ω) - Real.log m) P := hlog.sub (integrable_const _)
    rw [integral_sub a1 a2, integral_sub (hi.div_const m) (integrable_const 1), integral_sub hlog (integrable_const _),
      integral_div, ← hm, div_self hm0.ne']
    simp
  have hle : ∀ x : ℝ, 0 < x → Real.log x - Real.log m ≤ x / m - 1 := by
    intro x hx
    rw [← Real.log_div hx.ne' hm0.ne']
    exact Real.log_le_sub_one_of_pos (div_pos hx hm0)
  have hnn : 0 ≤ᵐ[P] fun ω => f ω / m - 1 - (Real.log (f ω) - Real.log m) := by
    filter_upwards [hp] with ω h
    have := hle _ h
    simp only [Pi.zero_apply]
    linarith
  have h0 := integral_nonneg_of_ae hnn
  rw [hval] at h0
  refine ⟨by linarith, fun hne => lt_of_le_of_ne (by linarith) fun heq => hne ?_⟩
  have hz : ∫ ω, (f ω / m - 1 - (Real.log (f ω) - Real.log m)) ∂P = 0 := by rw [hval, heq, sub_self]
  rw [integral_eq_zero_iff_of_nonneg_ae hnn hint] at hz
  filter_upwards [hz, hp] with ω h1 h2
  by_contra hc
  have hd : f ω / m ≠ 1 := fun h => hc ((div_eq_one_iff_eq hm0.ne').1 h)
  have := Real.log_lt_sub_one_of_pos (div_pos h2 hm0) hd
  rw [Real.log_div h2.ne' hm0.ne'] at this
  simp only [Pi.zero_apply] at h1
  linarith

theorem Source.unbiased (src : Source Ω) (h : src.Ideal P) (hp : src.Plain) (n : Nat) (hn : 1 ≤ n) (b : Nat × Nat) :
    Integrable (fun ω => (src.sample n ω).expected b) P ∧ ∫ ω, (src.sample n ω).expected b ∂P = src.limit b := by
  cases src with
  | table s =>
    simp only [Source.sample, Source.limit]
    exact ⟨integrable_const _, by simp⟩
  | events cfg rate law X W =>
    obtain ⟨p1, p2, p3⟩ := hp
    have hn0 : (n : ℝ) ≠ 0 := by positivity
    have hne : ¬ cfg.normType = "on_pdf" := by rw [p1]; decide
    have hprob := h.eventLaw.prob
    have hg : Measurable fun z => rate * weightIn cfg.bins b z := (measurable_weightIn cfg.bins b).const_mul rate
    have hi : Integrable (fun z => rate * weightIn cfg.bins b z) law :=
      ((weightIn_memLp cfg.bins law h.eventLaw b).integrable (by norm_num)).const_mul rate
    have e : (fun ω => ((Source.events cfg rate law X W).sample n ω).expected b)
        = fun ω => (∑ k ∈ Finset.range n, rate * weightIn cfg.bins b (X n k ω, W n k ω)) / n := by
      ext ω
      simp only [Source.sample]
      unfold Sample.expected Sample.norm
      rw [if_neg (show ¬ (sampleOf cfg rate n (fun k => X n k ω) (fun k => W n k ω)).cfg.normType = "on_pdf" from hne),
        if_neg (show ¬ (sampleOf cfg rate n (fun k => X n k ω) (fun k => W n k ω)).cfg.energy = .bootstrap by
          show ¬ cfg.energy = _; rw [p2]; decide), content_sampleOf cfg h.ascending, if_neg (by rw [p3]; decide), Finset.mul_sum]
      rfl
    rw [e]
    refine ⟨Integrable.div_const (integrable_finsetSum _ fun k hk => ?_) _, ?_⟩
    · exact (ideal_ident (h.events n) hg (Finset.mem_range.1 hk)).symm.integrable_snd hi
    · rw [integral_div, ideal_mean (h.events n) hg hi, mul_comm, mul_div_cancel_right₀ _ hn0, integral_const_mul]
      simp only [Source.limit, trueExpected, if_neg hne]
      rfl

theorem sources_unbiased (srcs : List (Source Ω)) (h : ∀ s ∈ srcs, s.Ideal P) (hp : ∀ s ∈ srcs, s.Plain) (n : Nat) (hn : 1 ≤ n)
    (b : Nat × Nat) : Integrable (fun ω => expectedIn (srcs.map (fun s => s.sample n ω)) b) P ∧
      ∫ ω, expectedIn (srcs.map (fun s => s.sample n ω)) b ∂P = limitIn srcs b := by
  unfold expectedIn limitIn
  induction srcs with
  | nil => simp
  | cons s srcs ih =>
    obtain ⟨i1, i2⟩ := ih (fun x hx => h x (by simp [hx])) (fun x hx => hp x (by simp [hx]))
    obtain ⟨j1, j2⟩ := s.unbiased (h s (by simp)) (hp s (by simp)) n hn b
    simp only [List.map_cons, List.sum_cons]
    exact ⟨j1.add i1, by rw [integral_add j1 i1, i2, j2]⟩

theorem integral_list_sum {α : Type} (l : List α) (f : α → Ω → ℝ) (h : ∀ x ∈ l, Integrable (f x) P) :
    Integrable (fun ω => (l.map (fun x => f x ω)).sum) P ∧
      ∫ ω, (l.map (fun x => f x ω)).sum ∂P = (l.map (fun x => ∫ ω, f x ω ∂P)).sum := by
  induction l with
  | nil => simp
  | cons x l ih =>
    obtain ⟨i1, i2⟩ := ih fun y hy => h y (by simp [hy])
    simp only [List.map_cons, List.sum_cons]
    exact ⟨(h x (by simp)).add i1, by rw [integral_add (h x (by simp)) i1, i2]⟩

theorem list_sum_lt {α : Type} (l : List α) (f g : α → ℝ) (h : ∀ x ∈ l, f x ≤ g x) (x : α) (hx : x ∈ l) (hlt : f x < g x) :
    (l.map f).sum < (l.map g).sum :=
  List.sum_lt_sum f g h ⟨x, hx, hlt⟩

theorem logL_low (bins : Comp.Bins ℝ) (data : List (List (Option ℝ))) (srcs : List (Source Ω))
    (h : ∀ s ∈ srcs, s.Ideal P) (hp : ∀ s ∈ srcs, s.Plain) (n : Nat) (hn : 1 ≤ n)
    (hpos : ∀ b ∈ binList bins, ∀ᵐ ω ∂P, 0 < expectedIn (srcs.map (fun s => s.sample n ω)) b)
    (hlog : ∀ b ∈ binList bins, Integrable (fun ω => Real.log (expectedIn (srcs.map (fun s => s.sample n ω)) b)) P) :
    ∫ ω, binnedLogL bins data (srcs.map (fun s => s.sample n ω)) ∂P ≤ trueLogL bins data srcs ∧
    ((∃ b ∈ binList bins, 0 < countIn bins data b ∧
        ¬ ∀ᵐ ω ∂P, expectedIn (srcs.map (fun s => s.sample n ω)) b = limitIn srcs b) →
      ∫ ω, binnedLogL bins data (srcs.map (fun s => s.sample n ω)) ∂P < trueLogL bins data srcs) := by
  have hu := fun b => sources_unbiased srcs h hp n hn b
  have hint : ∀ b ∈ binList bins, Integrable (fun ω => countIn bins data b *
      Real.log (expectedIn (srcs.map (fun s => s.sample n ω)) b) - expectedIn (srcs.map (fun s => s.sample n ω)) b) P :=
    fun b hb => ((hlog b hb).const_mul _).sub (hu b).1
  have hval : ∀ b ∈ binList bins, ∫ ω, (countIn bins data b *
      Real.log (expectedIn (srcs.map (fun s => s.sample n ω)) b) - expectedIn (srcs.map (fun s => s.sample n ω)) b) ∂P
      = countIn bins data b * (∫ ω, Real.log (expectedIn (srcs.map (fun s => s.sample n ω)) b) ∂P) - limitIn srcs b := by
    intro b hb
    rw [integral_sub ((hlog b hb).const_mul _) (hu b).1, integral_const_mul, (hu b).2]
  have hlm : ∀ b ∈ binList bins, _ := fun b hb => log_mean (hpos b hb) (hu b).1 (hlog b hb)
  simp only [fun b => (hu b).2] at hlm
  have hsum := integral_list_sum (P := P) (binList bins) (fun b ω => countIn bins data b *
      Real.log (expectedIn (srcs.map (fun s => s.sample n ω)) b) - expectedIn (srcs.map (fun s => s.sample n ω)) b) hint
  have hle : ∀ b ∈ binList bins, ∫ ω, (countIn bins data b *
      Real.log (expectedIn (srcs.map (fun s => s.sample n ω)) b) - expectedIn (srcs.map (fun s => s.sample n ω)) b) ∂P
      ≤ countIn bins data b * Real.log (limitIn srcs b) - limitIn srcs b := by
    intro b hb
    rw [hval b hb]
    have := mul_le_mul_of_nonneg_left (hlm b hb).1 (Nat.cast_nonneg (α := ℝ) (countIn bins data b))
    linarith
  unfold binnedLogL trueLogL
  rw [hsum.2]
  refine ⟨List.sum_le_sum hle, ?_⟩
  rintro ⟨b, hb, hc, hne⟩
  refine list_sum_lt _ _ _ hle b hb ?_
  rw [hval b hb]
  have hc' : (0 : ℝ) < countIn bins data b := by exact_mod_cast hc
  have := mul_lt_mul_of_pos_left ((hlm b hb).2 hne) hc'
  linarith

theorem Source.plain_normalisable (src : Source Ω) (h : src.Ideal P) (hp : src.Plain) (n : Nat) (hn : 1 ≤ n) (ω : Ω) :
    (src.sample n ω).Normalisable := by
  cases src with
  | table s => exact h
  | events cfg rate law X W =>
    obtain ⟨p1, p2, p3⟩ := hp
    refine ⟨.inr ⟨p1, .inl p2⟩, ?_⟩
    have hn0 : (n : ℝ) ≠ 0 := by positivity
    unfold Sample.norm
    rw [if_neg (show ¬ ((Source.events cfg rate law X W).sample n ω).cfg.normType = "on_pdf" by
        show ¬ cfg.normType = _; rw [p1]; decide),
      if_neg (show ¬ ((Source.events cfg rate law X W).sample n ω).cfg.energy = .bootstrap by
        show ¬ cfg.energy = _; rw [p2]; decide)]
    exact hn0

end

end Verif.Llh
