/-
The law of what a sequence of random steps adds up to does not depend on their order.
-/
import Verif.Spec.Order
import Verif.Spec.Walk
import Verif.Props.Likelihood
import Mathlib.MeasureTheory.Measure.GiryMonad
import Mathlib.MeasureTheory.Measure.WithDensity
import Mathlib.MeasureTheory.Constructions.BorelSpace.Real
import Mathlib.MeasureTheory.Function.SpecialFunctions.Basic
import Mathlib.Probability.ProductMeasure

namespace Verif.Order
open Verif MeasureTheory
open scoped ENNReal

/-! ### Measurable functions of floating-point numbers -/

theorem measurable_fin : Measurable XF.fin := fun _ h => h

theorem measurable_xf {B : Type} [MeasurableSpace B] {f : XF → B} (h : Measurable fun x : ℝ => f (.fin x)) : Measurable f :=
  fun _ hs => h hs

/-- Which kind of number. -/
def kind : XF → Fin 4
  | .fin _ => 0
  | .nan => 1
  | .ninf => 2
  | .pinf => 3

/-- A number of a given kind that is not ordinary. -/
noncomputable def ofKind : Fin 4 → XF
  | 0 => .fin 0
  | 1 => .nan
  | 2 => .ninf
  | 3 => .pinf

/-- The value of an ordinary number. -/
def val : XF → ℝ
  | .fin x => x
  | _ => 0

theorem measurable_kind : Measurable kind := measurable_xf measurable_const
theorem measurable_val : Measurable val := measurable_xf measurable_id

theorem add_eq (a b : XF) : a + b = if kind a = 0 ∧ kind b = 0 then .fin (val a + val b) else ofKind (kind a) + ofKind (kind b) := by
  cases a <;> cases b <;> simp [kind, val, ofKind, (· + ·), Add.add, XF.add]

theorem measurable_add : Measurable fun q : XF × XF => q.1 + q.2 := by
  have h1 : Measurable fun q : XF × XF => kind q.1 := measurable_kind.comp measurable_fst
  have h2 : Measurable fun q : XF × XF => kind q.2 := measurable_kind.comp measurable_snd
  have h0 : (fun q : XF × XF => q.1 + q.2) = fun q => if kind q.1 = 0 ∧ kind q.2 = 0 then .fin (val q.1 + val q.2)
      else ofKind (kind q.1) + ofKind (kind q.2) := funext fun q => add_eq q.1 q.2
  rw [h0]
  refine Measurable.ite ((measurableSet_eq_fun h1 measurable_const).inter (measurableSet_eq_fun h2 measurable_const)) ?_ ?_
  · exact measurable_fin.comp ((measurable_val.comp measurable_fst).add (measurable_val.comp measurable_snd))
  · exact (measurable_of_finite (fun q : Fin 4 × Fin 4 => ofKind q.1 + ofKind q.2)).comp (h1.prodMk h2)

theorem measurable_sum {A : Type} [MeasurableSpace A] {fs : List (A → XF)} (h : ∀ f ∈ fs, Measurable f) :
    Measurable fun a => XF.sum (fs.map (fun f => f a)) := by
  induction fs with
  | nil => exact measurable_const
  | cons f fs ih =>
    simp only [List.map_cons, XF.sum_cons]
    exact measurable_add.comp ((h f (by simp)).prodMk (ih fun g hg => h g (by simp [hg])))

/-! ### Steps -/

section
variable {K M : Type} [MeasurableSpace K] [MeasurableSpace M] {ρ : Measure K} [IsProbabilityMeasure ρ]

theorem fresh_iff {s : K → K × M} (hs : Measurable s) : Fresh ρ s ↔ ∀ F : M × K → ℝ≥0∞, Measurable F →
    ∫⁻ k, F ((s k).2, (s k).1) ∂ρ = ∫⁻ k, ∫⁻ k', F ((s k).2, k') ∂ρ ∂ρ := by
  have h2 : Measurable fun k => ((s k).2, (s k).1) := hs.snd.prodMk hs.fst
  have : IsProbabilityMeasure (ρ.map (fun k => (s k).2)) := Measure.isProbabilityMeasure_map hs.snd.aemeasurable
  have key : ∀ F : M × K → ℝ≥0∞, Measurable F → ∫⁻ q, F q ∂((ρ.map (fun k => (s k).2)).prod ρ)
      = ∫⁻ k, ∫⁻ k', F ((s k).2, k') ∂ρ ∂ρ := by
    intro F hF
    rw [lintegral_prod _ hF.aemeasurable, lintegral_map hF.lintegral_prod_right' hs.snd]
  constructor
  · rintro ⟨-, h⟩ F hF
    rw [← key F hF, ← h, lintegral_map hF h2]
  · intro h
    refine ⟨hs, Measure.ext_of_lintegral _ fun F hF => ?_⟩
    rw [lintegral_map hF h2, h F hF, key F hF]

/-- A step that gives a constant and keeps the key. -/
theorem fresh_const (m : M) : Fresh ρ (fun k => (k, m)) :=
  (fresh_iff (measurable_id.prodMk measurable_const)).2 fun F _ => by simp

/-- A function of the result of a step. -/
theorem fresh_comp {B : Type} [MeasurableSpace B] {s : K → K × M} (hs : Fresh ρ s) {f : M → B} (hf : Measurable f) :
    Fresh ρ (fun k => ((s k).1, f (s k).2)) := by
  refine (fresh_iff (hs.1.fst.prodMk (hf.comp hs.1.snd))).2 fun F hF => ?_
  exact (fresh_iff hs.1).1 hs (fun q => F (f q.1, q.2)) (hF.comp ((hf.comp measurable_fst).prodMk measurable_snd))

/-- Steps one after the other, each with the key that the one before has left; the results are accumulated. -/
def run (op : M → M → M) : List (K → K × M) → K → M → K × M
  | [], k, acc => (k, acc)
  | s :: r, k, acc => run op r (s k).1 (op acc (s k).2)

variable {op : M → M → M}

theorem measurable_run (hop : Measurable fun q : M × M => op q.1 q.2) {l : List (K → K × M)} (hl : ∀ s ∈ l, Fresh ρ s) :
    Measurable fun q : K × M => run op l q.1 q.2 := by
  induction l with
  | nil => exact measurable_id
  | cons s r ih =>
    have hs := (hl s (by simp)).1
    exact (ih fun t ht => hl t (by simp [ht])).comp ((hs.fst.comp measurable_fst).prodMk
      (hop.comp (measurable_snd.prodMk (hs.snd.comp measurable_fst))))

theorem measurable_run_acc (hop : Measurable fun q : M × M => op q.1 q.2) {l : List (K → K × M)} (hl : ∀ s ∈ l, Fresh ρ s) (acc : M) :
    Measurable fun k : K => run op l k acc := (measurable_run hop hl).comp (measurable_id.prodMk measurable_const)

theorem fresh_run (hop : Measurable fun q : M × M => op q.1 q.2) {l : List (K → K × M)} (hl : ∀ s ∈ l, Fresh ρ s) (acc : M) :
    Fresh ρ (fun k => run op l k acc) := by
  induction l generalizing acc with
  | nil => exact fresh_const acc
  | cons s r ih =>
    have hr : ∀ t ∈ r, Fresh ρ t := fun t ht => hl t (by simp [ht])
    have hs := hl s (by simp)
    have hm := measurable_run hop hr
    refine (fresh_iff (measurable_run_acc hop hl acc)).2 fun F hF => ?_
    have g1 : Measurable fun q : M × K => run op r q.2 (op acc q.1) :=
      hm.comp (measurable_snd.prodMk (hop.comp (measurable_const.prodMk measurable_fst)))
    have e1 := (fresh_iff hs.1).1 hs (fun q => F ((run op r q.2 (op acc q.1)).2, (run op r q.2 (op acc q.1)).1))
      (hF.comp (g1.snd.prodMk g1.fst))
    have g2 : Measurable fun q : (M × K) × K => F ((run op r q.1.2 (op acc q.1.1)).2, q.2) :=
      hF.comp ((g1.comp measurable_fst).snd.prodMk measurable_snd)
    have e2 := (fresh_iff hs.1).1 hs (fun q => ∫⁻ k', F ((run op r q.2 (op acc q.1)).2, k') ∂ρ) g2.lintegral_prod_right'
    simp only [run]
    simp only at e1 e2
    rw [e1, e2]
    refine lintegral_congr fun k => ?_
    exact (fresh_iff (measurable_run_acc hop hr _)).1 (ih hr (op acc (s k).2)) F hF

theorem run_cons (hop : Measurable fun q : M × M => op q.1 q.2) {s : K → K × M} {r : List (K → K × M)} (hs : Fresh ρ s)
    (hr : ∀ t ∈ r, Fresh ρ t) (acc : M) {F : M → ℝ≥0∞} (hF : Measurable F) :
    ∫⁻ k, F (run op (s :: r) k acc).2 ∂ρ = ∫⁻ x, ∫⁻ k, F (run op r k (op acc x)).2 ∂ρ ∂(ρ.map fun k => (s k).2) := by
  have hm := measurable_run hop hr
  have g1 : Measurable fun q : M × K => F (run op r q.2 (op acc q.1)).2 :=
    hF.comp (hm.comp (measurable_snd.prodMk (hop.comp (measurable_const.prodMk measurable_fst)))).snd
  rw [lintegral_map g1.lintegral_prod_right' hs.1.snd]
  exact (fresh_iff hs.1).1 hs (fun q => F (run op r q.2 (op acc q.1)).2) g1

/-- The law of the total depends only on the laws of the results of the steps. -/
theorem run_laws (hop : Measurable fun q : M × M => op q.1 q.2) {l l' : List (K → K × M)} (hl : ∀ s ∈ l, Fresh ρ s)
    (hl' : ∀ s ∈ l', Fresh ρ s)
    (h : List.Forall₂ (fun s s' : K → K × M => (ρ.map fun k => (s k).2) = ρ.map fun k => (s' k).2) l l')
    (acc : M) {F : M → ℝ≥0∞} (hF : Measurable F) :
    ∫⁻ k, F (run op l k acc).2 ∂ρ = ∫⁻ k, F (run op l' k acc).2 ∂ρ := by
  induction h generalizing acc with
  | nil => rfl
  | cons h _ ih =>
    rw [run_cons hop (hl _ (by simp)) (fun t ht => hl t (by simp [ht])) acc hF,
      run_cons hop (hl' _ (by simp)) (fun t ht => hl' t (by simp [ht])) acc hF, h]
    exact lintegral_congr fun x => ih (fun t ht => hl t (by simp [ht])) (fun t ht => hl' t (by simp [ht])) _

/-- The law of the total does not depend on the order of the steps. -/
theorem run_perm (hop : Measurable fun q : M × M => op q.1 q.2) (hc : ∀ a x y, op (op a x) y = op (op a y) x)
    {l l' : List (K → K × M)} (h : l.Perm l') (hl : ∀ s ∈ l, Fresh ρ s) (acc : M) {F : M → ℝ≥0∞} (hF : Measurable F) :
    ∫⁻ k, F (run op l k acc).2 ∂ρ = ∫⁻ k, F (run op l' k acc).2 ∂ρ := by
  induction h generalizing acc with
  | nil => rfl
  | cons s h ih =>
    have hr : ∀ t ∈ _, Fresh ρ t := fun t ht => hl t (List.mem_cons_of_mem _ ht)
    rw [run_cons hop (hl _ (by simp)) hr acc hF,
      run_cons hop (hl _ (by simp)) (fun t ht => hr t (h.mem_iff.2 ht)) acc hF]
    exact lintegral_congr fun x => ih hr _
  | swap s t r =>
    have hr : ∀ u ∈ r, Fresh ρ u := fun u hu => hl u (by simp [hu])
    have hs := hl s (by simp)
    have ht := hl t (by simp)
    have hsr : ∀ u ∈ s :: r, Fresh ρ u := fun u hu => by
      rcases List.mem_cons.1 hu with rfl | h
      · exact hs
      · exact hr u h
    have htr : ∀ u ∈ t :: r, Fresh ρ u := fun u hu => by
      rcases List.mem_cons.1 hu with rfl | h
      · exact ht
      · exact hr u h
    rw [run_cons hop ht hsr acc hF, run_cons hop hs htr acc hF]
    simp only [run_cons hop hs hr _ hF, run_cons hop ht hr _ hF]
    have := Measure.isProbabilityMeasure_map (μ := ρ) hs.1.snd.aemeasurable
    have := Measure.isProbabilityMeasure_map (μ := ρ) ht.1.snd.aemeasurable
    have g : Measurable fun q : (M × M) × K => F (run op r q.2 (op (op acc q.1.1) q.1.2)).2 :=
      hF.comp ((measurable_run hop hr).comp (measurable_snd.prodMk (hop.comp ((hop.comp (measurable_const.prodMk
        (measurable_fst.comp measurable_fst))).prodMk (measurable_snd.comp measurable_fst))))).snd
    rw [lintegral_lintegral_swap g.lintegral_prod_right'.aemeasurable]
    simp only [hc acc]
  | trans h1 _ ih1 ih2 => rw [ih1 hl, ih2 fun s hs => hl s (h1.mem_iff.2 hs)]

/-- As an equality of measures. -/
theorem run_law (hop : Measurable fun q : M × M => op q.1 q.2) (hc : ∀ a x y, op (op a x) y = op (op a y) x)
    {l m l' : List (K → K × M)} (h : l.Perm m)
    (h' : List.Forall₂ (fun s s' : K → K × M => (ρ.map fun k => (s k).2) = ρ.map fun k => (s' k).2) m l')
    (hl : ∀ s ∈ l, Fresh ρ s) (hl' : ∀ s ∈ l', Fresh ρ s) (acc : M) :
    (ρ.map fun k => (run op l k acc).2) = ρ.map fun k => (run op l' k acc).2 := by
  refine Measure.ext_of_lintegral _ fun F hF => ?_
  rw [lintegral_map hF (measurable_run_acc hop hl acc).snd, lintegral_map hF (measurable_run_acc hop hl' acc).snd,
    run_perm hop hc h hl acc hF, run_laws hop (fun s hs => hl s (h.mem_iff.2 hs)) hl' h' acc hF]

/-! ### Histograms -/

/-- The places of the bins. -/
def places (data : Llh.Grid ℝ) : List (Nat × Nat) := (data.mapIdx fun i r => r.mapIdx fun j _ => (i, j)).flatten

theorem gridOf_flatten (data : Llh.Grid ℝ) (f : Nat × Nat → XF) : (gridOf data f).flatten = (places data).map f := by
  unfold places gridOf
  rw [List.map_flatten]
  congr 1
  refine List.ext_getElem (by simp) fun i h1 h2 => ?_
  simp only [List.getElem_map, List.getElem_mapIdx]
  exact List.ext_getElem (by simp) fun j h3 h4 => by simp

theorem gridOf_shape (data : Llh.Grid ℝ) (f : Nat × Nat → XF) : (gridOf data f).map List.length = data.map List.length := by
  unfold gridOf
  refine List.ext_getElem (by simp) fun i h1 h2 => by simp

theorem zipWith_mapIdx {α β γ δ : Type} (F : β → γ → δ) (a : Nat → α → β) (b : Nat → α → γ) (l : List α) :
    List.zipWith F (l.mapIdx a) (l.mapIdx b) = l.mapIdx fun i x => F (a i x) (b i x) :=
  List.ext_getElem (by simp) fun i h1 h2 => by simp

theorem gridOf_add (data : Llh.Grid ℝ) (f g : Nat × Nat → XF) :
    Llh.addGrid (gridOf data f) (gridOf data g) = .ok (gridOf data fun q => f q + g q) := by
  unfold Llh.addGrid
  rw [if_pos (by rw [gridOf_shape, gridOf_shape])]
  unfold gridOf
  rw [zipWith_mapIdx]
  simp only [zipWith_mapIdx]

theorem gridOf_zeros (data : Llh.Grid ℝ) : (Llh.zeros data : Llh.Grid XF) = gridOf data fun _ => 0 := by
  unfold Llh.zeros gridOf
  refine List.ext_getElem (by simp) fun i h1 h2 => ?_
  simp only [List.getElem_map, List.getElem_mapIdx]
  exact List.ext_getElem (by simp) fun j h3 h4 => by simp

theorem measurable_any (p : XF → Bool) (hp : Measurable p) (l : List (Nat × Nat)) :
    Measurable fun f : Nat × Nat → XF => (l.map f).any p := by
  induction l with
  | nil => exact measurable_const
  | cons q l ih =>
    simp only [List.map_cons, List.any_cons]
    exact (measurable_of_finite (fun b : Bool × Bool => b.1 || b.2)).comp ((hp.comp (measurable_pi_apply q)).prodMk ih)

/-- The value of the likelihood from the model histogram. -/
noncomputable def llhVal (data : Llh.Grid ℝ) (h : Llh.Grid XF) : XF :=
  if Llh.anyNonPositive h then .ninf else if Llh.anyNotFinite h then .ninf else Llh.poisson data h

theorem llhVal_eq (data : Llh.Grid ℝ) (h : Llh.Grid XF) : Llh.llhOf data h = .ok (llhVal data h) := by
  obtain ⟨v, hv, -⟩ := Llh.C38_never_nan data h
  rw [hv]
  unfold Llh.llhOf at hv
  unfold llhVal
  split at hv
  · rename_i hc; rw [if_pos hc]; exact hv.symm
  rename_i hc
  rw [if_neg hc]
  split at hv
  · rename_i hc; rw [if_pos hc]; exact hv.symm
  rename_i hc
  rw [if_neg hc]
  split at hv
  · cases hv
  · exact hv.symm

open Classical in
theorem measurable_llhVal (data : Llh.Grid ℝ) : Measurable fun f : Nat × Nat → XF => llhVal data (gridOf data f) := by
  unfold llhVal
  refine Measurable.ite ?_ measurable_const (Measurable.ite ?_ measurable_const ?_)
  · unfold Llh.anyNonPositive
    simp only [gridOf_flatten]
    refine (measurable_any _ (measurable_xf ?_) (places data)) (measurableSet_singleton true)
    exact (measurable_to_bool (by
      have : ((fun x : ℝ => decide (XF.fin x ≤ .fin 0)) ⁻¹' {true}) = Set.Iic 0 := by ext x; simp
      rw [this]; exact measurableSet_Iic))
  · unfold Llh.anyNotFinite
    simp only [gridOf_flatten]
    refine (measurable_any _ (measurable_xf ?_) (places data)) (measurableSet_singleton true)
    simp only [XF.isFinite_fin]
    exact measurable_const
  · unfold Llh.poisson
    simp only [gridOf_flatten]
    have e : ∀ f : Nat × Nat → XF, List.zipWith (fun d m => XF.fin d * XF.log m + -m) data.flatten ((places data).map f)
        = (List.zipWith (fun d q => fun f : Nat × Nat → XF => XF.fin d * XF.log (f q) + -(f q)) data.flatten (places data)).map (fun g => g f) := by
      intro f
      rw [List.map_zipWith, List.zipWith_map_right]
    simp only [e]
    refine measurable_sum fun g hg => ?_
    obtain ⟨d, -, q, -, rfl⟩ := Llh.mem_zipWith _ _ _ _ hg
    refine (measurable_xf (f := fun m : XF => XF.fin d * XF.log m + -m) ?_).comp (measurable_pi_apply q)
    have h1 : (fun x : ℝ => XF.fin d * XF.log (.fin x) + -(XF.fin x)) = fun x => if 0 < x then .fin (d * Real.log x + -x)
        else if x = 0 then XF.fin d * .ninf + -(XF.fin x) else .nan := by
      funext x
      by_cases hx : 0 < x
      · simp [XF.log, hx]
      · by_cases h0 : x = 0
        · simp [XF.log, h0]
        · simp [XF.log, h0, hx]
    rw [h1]
    refine Measurable.ite measurableSet_Ioi ?_ (Measurable.ite (measurableSet_singleton 0) ?_ measurable_const)
    · exact measurable_fin.comp ((measurable_const.mul Real.measurable_log).add measurable_neg)
    · exact measurable_add.comp (measurable_const.prodMk (measurable_fin.comp measurable_neg))

/-! ### Likelihoods -/

/-- Addition of contents. -/
noncomputable def plus (f g : Nat × Nat → XF) : Nat × Nat → XF := fun q => f q + g q

theorem measurable_plus : Measurable fun q : (Nat × Nat → XF) × (Nat × Nat → XF) => plus q.1 q.2 := by
  refine measurable_pi_iff.2 fun q => ?_
  have h1 : Measurable fun z : (Nat × Nat → XF) × (Nat × Nat → XF) => z.1 q := (measurable_pi_apply q).comp measurable_fst
  have h2 : Measurable fun z : (Nat × Nat → XF) × (Nat × Nat → XF) => z.2 q := (measurable_pi_apply q).comp measurable_snd
  exact measurable_add.comp (h1.prodMk h2)

theorem add_right (a x y : XF) : a + x + y = a + y + x := by
  rw [XF.add_assoc', XF.add_comm' x y, ← XF.add_assoc']

theorem comp_step (ρ : Measure K) [IsProbabilityMeasure ρ] (data : Llh.Grid ℝ) (batch : Int) (p : PyDict String XF) :
    ∃ st : Llh.LComp K XF → K → K × (Nat × Nat → XF), ∀ c, RandomComp ρ data batch p c → Fresh ρ (st c) ∧
      ∀ m cs key acc, Llh.modelLoop batch p ((m, c) :: cs) key (gridOf data acc)
        = Llh.modelLoop batch p cs (st c key).1 (gridOf data (plus acc (st c key).2)) := by
  have : ∀ c : Llh.LComp K XF, ∃ s : K → K × (Nat × Nat → XF), RandomComp ρ data batch p c → Fresh ρ s ∧
      ∀ m cs key acc, Llh.modelLoop batch p ((m, c) :: cs) key (gridOf data acc)
        = Llh.modelLoop batch p cs (s key).1 (gridOf data (plus acc (s key).2)) := by
    intro c
    by_cases hc : RandomComp ρ data batch p c
    · cases c with
      | sim nd h w =>
        obtain ⟨s, hs, e⟩ := hc
        refine ⟨s, fun _ => ⟨hs, fun m cs key acc => ?_⟩⟩
        simp only [Llh.modelLoop, e, bind, Except.bind, gridOf_add]
        rfl
      | fixed nd h w =>
        obtain ⟨f, e⟩ := hc
        refine ⟨fun k => (k, f), fun _ => ⟨fresh_const f, fun m cs key acc => ?_⟩⟩
        simp only [Llh.modelLoop, e, bind, Except.bind, gridOf_add]
        rfl
      | other nd => exact hc.elim
    · exact ⟨fun k => (k, fun _ => .nan), fun h => absurd h hc⟩
  choose st hst using this
  exact ⟨st, hst⟩

theorem modelLoop_run {data : Llh.Grid ℝ} {batch : Int} {p : PyDict String XF} {st : Llh.LComp K XF → K → K × (Nat × Nat → XF)}
    {cs : List (String × Llh.LComp K XF)}
    (h : ∀ m c, (m, c) ∈ cs → ∀ m cs key acc, Llh.modelLoop batch p ((m, c) :: cs) key (gridOf data acc)
        = Llh.modelLoop batch p cs (st c key).1 (gridOf data (plus acc (st c key).2))) (key : K) (acc : Nat × Nat → XF) :
    Llh.modelLoop batch p cs key (gridOf data acc)
      = .ok ((run plus (cs.map fun a => st a.2) key acc).1, gridOf data (run plus (cs.map fun a => st a.2) key acc).2) := by
  induction cs generalizing key acc with
  | nil => rfl
  | cons a cs ih =>
    rw [h a.1 a.2 (by simp) a.1 cs key acc, ih fun m c hm => h m c (by simp [hm])]
    rfl

/-- The value of a likelihood and of the same one with its components in another order. -/
theorem obj_steps {batch : Int} {p : PyDict String XF} {o o' : Ctx.Obj K} (ho : RandomObj ρ batch p o) (h : Reordered o o') :
    ∃ s s' : K → K × XF, Fresh ρ s ∧ Fresh ρ s' ∧ (∀ key, o.logL key batch p = .ok (s key)) ∧
      (∀ key, o'.logL key batch p = .ok (s' key)) ∧ (ρ.map fun k => (s k).2) = ρ.map fun k => (s' k).2 := by
  cases o with
  | lit al shape nd st =>
    obtain rfl : o' = .lit al shape nd st := by cases o' <;> exact h
    obtain ⟨s, h1, h2⟩ := ho
    exact ⟨s, s, h1, h1, h2, h2, rfl⟩
  | binned al data st =>
    cases o' with
    | lit => exact absurd h (by simp [Reordered])
    | binned al' data' st' =>
      obtain ⟨rfl, rfl, hperm⟩ := h
      obtain ⟨f, hf⟩ := comp_step ρ data' batch (Llh.replaceAlias al' (Llh.replaceAlias al' p))
      have key : ∀ s2 : Llh.State K XF, (∀ m c, (m, c) ∈ s2.components →
            RandomComp ρ data' batch (Llh.replaceAlias al' (Llh.replaceAlias al' p)) c) →
          (∀ t ∈ s2.components.map (fun a => f a.2), Fresh ρ t) ∧
          ∀ key, (Ctx.Obj.binned al' data' s2 : Ctx.Obj K).logL key batch p
            = .ok ((run plus (s2.components.map fun a => f a.2) key fun _ => 0).1,
                llhVal data' (gridOf data' (run plus (s2.components.map fun a => f a.2) key fun _ => 0).2)) := by
        intro s2 h2
        refine ⟨fun t ht => ?_, fun key => ?_⟩
        · obtain ⟨⟨m, c⟩, ha, rfl⟩ := List.mem_map.1 ht
          exact (hf c (h2 m c ha)).1
        · simp only [Ctx.Obj.logL, Llh.getLogLikelihood, Llh.simulateModelHist, gridOf_zeros]
          rw [modelLoop_run fun m c hm => (hf c (h2 m c hm)).2]
          simp only [bind, Except.bind, llhVal_eq]
          rfl
      obtain ⟨f1, e1⟩ := key st ho
      obtain ⟨f2, e2⟩ := key st' fun m c hm => ho m c (hperm.mem_iff.2 hm)
      have hm := measurable_llhVal data'
      refine ⟨_, _, fresh_comp (fresh_run measurable_plus f1 _) hm, fresh_comp (fresh_run measurable_plus f2 _) hm, e1, e2, ?_⟩
      have e := run_law (ρ := ρ) measurable_plus (fun a x y => funext fun q => add_right _ _ _) (hperm.map fun a => f a.2)
        (List.forall₂_same.2 fun _ _ => rfl) f1 f2 (fun _ => 0)
      have a1 := Measure.map_map (μ := ρ) hm (measurable_run_acc measurable_plus f1 fun _ => 0).snd
      have a2 := Measure.map_map (μ := ρ) hm (measurable_run_acc measurable_plus f2 fun _ => 0).snd
      rw [e, a2] at a1
      exact a1.symm

theorem onceLoop_run {batch : Int} {p : PyDict String XF} {ls : List (String × Ctx.Obj K)} {ss : List (K → K × XF)}
    (h : List.Forall₂ (fun a s => ∀ key, a.2.logL key batch p = .ok (s key)) ls ss) (key : K) (acc : XF) :
    Ctx.onceLoop batch p ls key acc = .ok (run (· + ·) ss key acc).2 := by
  induction h generalizing key acc with
  | nil => rfl
  | cons h _ ih =>
    simp only [Ctx.onceLoop, h key, bind, Except.bind, ih]
    rfl

/-- The steps of two contexts that differ in the order of likelihoods and components. -/
theorem context_steps {batch : Int} {p : PyDict String XF} {ls mid ls' : List (String × Ctx.Obj K)} (hperm : ls.Perm mid)
    (hmid : List.Forall₂ (fun a b => b.1 = a.1 ∧ Reordered a.2 b.2) mid ls')
    (hr : ∀ m o, (m, o) ∈ ls → RandomObj ρ batch p o) :
    ∃ ss ms ss' : List (K → K × XF), (∀ s ∈ ss, Fresh ρ s) ∧ (∀ s ∈ ss', Fresh ρ s) ∧
      List.Forall₂ (fun a s => ∀ key, a.2.logL key batch p = .ok (s key)) ls ss ∧
      List.Forall₂ (fun a s => ∀ key, a.2.logL key batch p = .ok (s key)) ls' ss' ∧ ss.Perm ms ∧
      List.Forall₂ (fun s s' : K → K × XF => (ρ.map fun k => (s k).2) = ρ.map fun k => (s' k).2) ms ss' := by
  have hex : ∀ o : Ctx.Obj K, ∃ s : K → K × XF, RandomObj ρ batch p o → Fresh ρ s ∧ ∀ key, o.logL key batch p = .ok (s key) := by
    intro o
    by_cases ho : RandomObj ρ batch p o
    · have href : Reordered o o := by cases o <;> simp [Reordered]
      obtain ⟨s, -, h1, -, h2, -⟩ := obj_steps ho href
      exact ⟨s, fun _ => ⟨h1, h2⟩⟩
    · exact ⟨fun k => (k, .nan), fun h => absurd h ho⟩
  choose st hst using hex
  have hrm : ∀ a ∈ mid, RandomObj ρ batch p a.2 := fun a ha => hr a.1 a.2 (hperm.mem_iff.2 ha)
  have key : ∃ ss' : List (K → K × XF), (∀ s ∈ ss', Fresh ρ s) ∧
      List.Forall₂ (fun a s => ∀ key, a.2.logL key batch p = .ok (s key)) ls' ss' ∧
      List.Forall₂ (fun s s' : K → K × XF => (ρ.map fun k => (s k).2) = ρ.map fun k => (s' k).2) (mid.map fun a => st a.2) ss' := by
    clear hperm
    induction hmid with
    | nil => exact ⟨[], by simp, .nil, .nil⟩
    | @cons a b r r' hab _ ih =>
      obtain ⟨ss', h1, h2, h3⟩ := ih fun a ha => hrm a (by simp [ha])
      have ha := hrm a (by simp)
      obtain ⟨s, s', g1, g2, g3, g4, g5⟩ := obj_steps ha hab.2
      have hs : st a.2 = s := funext fun k => by
        have := ((hst a.2 ha).2 k).symm.trans (g3 k)
        exact Except.ok.inj this
      refine ⟨s' :: ss', ?_, .cons g4 h2, .cons (by subst hs; exact g5) h3⟩
      intro t ht
      rcases List.mem_cons.1 ht with rfl | h
      · exact g2
      · exact h1 t h
  obtain ⟨ss', h1, h2, h3⟩ := key
  refine ⟨ls.map fun a => st a.2, mid.map fun a => st a.2, ss', ?_, h1, ?_, h2, hperm.map _, h3⟩
  · intro s hs
    obtain ⟨a, ha, rfl⟩ := List.mem_map.1 hs
    exact (hst a.2 (hr a.1 a.2 ha)).1
  · rw [List.forall₂_map_right_iff]
    exact List.forall₂_same.2 fun a ha => (hst a.2 (hr a.1 a.2 ha)).2

/-- The mean over the repeats of values. -/
noncomputable def average (repeats : Int) (vs : Nat → XF) : XF :=
  if 1 < repeats then XF.sum ((List.range repeats.toNat).map vs) / .fin repeats.toNat else vs 0

theorem measurable_average (repeats : Int) : Measurable (average repeats) := by
  unfold average
  by_cases h : 1 < repeats
  · simp only [if_pos h]
    have h1 : Measurable fun vs : Nat → XF => XF.sum ((List.range repeats.toNat).map vs) := by
      have := measurable_sum (A := Nat → XF) (fs := (List.range repeats.toNat).map fun i vs => vs i) (by
        intro f hf
        obtain ⟨i, -, rfl⟩ := List.mem_map.1 hf
        exact measurable_pi_apply i)
      simpa [Function.comp_def] using this
    refine (measurable_xf (f := fun x : XF => x / .fin repeats.toNat) ?_).comp h1
    have hn : ((repeats.toNat : ℕ) : ℝ) ≠ 0 := by
      have : repeats.toNat ≠ 0 := by omega
      exact_mod_cast this
    have e : (fun x : ℝ => XF.fin x / XF.fin (repeats.toNat : ℝ)) = fun x => .fin (x / repeats.toNat) := by
      funext x
      show XF.div _ _ = _
      simp [XF.div, hn]
    rw [e]
    exact measurable_fin.comp (measurable_id.div_const _)
  · simp only [if_neg h]
    exact measurable_pi_apply 0

theorem repeated_average {c : Ctx.Ctx K} {batch repeats : Int} {l : List (K → K × XF)}
    (h : List.Forall₂ (fun a s => ∀ key, a.2.logL key batch c.pm.vals = .ok (s key)) c.likelihoods l) {keys : Nat → K} {lp : XF} :
    Ctx.repeated c batch repeats keys lp = .ok (average repeats fun i => (run (· + ·) l (keys i) (.fin 0)).2 + lp) := by
  have h1 : ∀ k, Ctx.once c batch k lp = .ok ((run (· + ·) l k (.fin 0)).2 + lp) := fun k => by
    simp only [Ctx.once, onceLoop_run h, bind, Except.bind, pure, Except.pure]
  unfold Ctx.repeated average
  split
  · have h2 : (List.range repeats.toNat).mapM (fun i => Ctx.once c batch (keys i) lp)
        = .ok ((List.range repeats.toNat).map fun i => (run (· + ·) l (keys i) (.fin 0)).2 + lp) := by
      refine (mapM_ok_iff _ _ _).2 ?_
      rw [List.forall₂_map_right_iff]
      exact List.forall₂_same.2 fun i _ => h1 _
    rw [h2]
    simp [bind, Except.bind, pure, Except.pure]
  · exact h1 _

end

/-! ### Keys that are sequences of independent draws -/

section
variable {X : Type} [MeasurableSpace X] (α : Measure X) [IsProbabilityMeasure α]

/-- A draw put before a sequence. -/
def consStream (q : X × (Nat → X)) : Nat → X
  | 0 => q.1
  | n + 1 => q.2 n

theorem measurable_consStream : Measurable (consStream : X × (Nat → X) → Nat → X) := by
  refine measurable_pi_iff.2 fun n => ?_
  cases n with
  | zero => exact measurable_fst
  | succ n => exact (measurable_pi_apply n).comp measurable_snd

theorem stream_law : (α.prod (Measure.infinitePi fun _ : Nat => α)).map consStream = Measure.infinitePi fun _ : Nat => α := by
  refine Measure.eq_infinitePi _ fun s t ht => ?_
  have hb : MeasurableSet ((s : Set ℕ).pi t) := .pi s.countable_toSet fun _ _ => ht _
  rw [Measure.map_apply measurable_consStream hb]
  classical
  let s' : Finset ℕ := s.preimage Nat.succ (Nat.succ_injective.injOn)
  have e : consStream ⁻¹' ((s : Set ℕ).pi t) = (if 0 ∈ s then t 0 else Set.univ) ×ˢ ((s' : Set ℕ).pi fun n => t (n + 1)) := by
    ext q
    simp only [Set.mem_preimage, Set.mem_pi, Set.mem_prod, Finset.mem_coe]
    constructor
    · intro h
      refine ⟨?_, fun n hn => h (n + 1) (by simpa [s'] using hn)⟩
      split
      · rename_i h0; exact h 0 h0
      · trivial
    · rintro ⟨h1, h2⟩ n hn
      cases n with
      | zero => rw [if_pos hn] at h1; exact h1
      | succ n => exact h2 n (by simpa [s'] using hn)
  rw [e, Measure.prod_prod, Measure.infinitePi_pi _ (fun n _ => ht _)]
  have hs : s = (if 0 ∈ s then {0} else ∅) ∪ s'.image Nat.succ := by
    ext n
    cases n with
    | zero => by_cases h : 0 ∈ s <;> simp [h, s']
    | succ n => by_cases h : 0 ∈ s <;> simp [h, s']
  have hd : Disjoint (if 0 ∈ s then ({0} : Finset ℕ) else ∅) (s'.image Nat.succ) := by
    split <;> simp
  conv_rhs => rw [hs, Finset.prod_union hd, Finset.prod_image (fun a _ b _ h => Nat.succ_injective h)]
  congr 1
  split <;> simp

/-- A sequence of independent draws whose first is used up. -/
theorem fresh_stream {M : Type} [MeasurableSpace M] {f : X → M} (hf : Measurable f) :
    Fresh (Measure.infinitePi fun _ : Nat => α) (fun k : Nat → X => ((fun n => k (n + 1)), f (k 0))) := by
  have hshift : Measurable fun k : Nat → X => ((fun n => k (n + 1)) : Nat → X) :=
    measurable_pi_iff.2 fun n => measurable_pi_apply (n + 1)
  have h0 : Measurable fun k : Nat → X => k 0 := measurable_pi_apply 0
  have hb : Fresh (Measure.infinitePi fun _ : Nat => α) (fun k : Nat → X => ((fun n => k (n + 1)), k 0)) := by
    refine ⟨hshift.prodMk h0, ?_⟩
    have e0 : (Measure.infinitePi fun _ : Nat => α).map (fun k => k 0) = α := Measure.infinitePi_map_eval _ 0
    simp only [e0]
    conv_lhs => rw [← stream_law α]
    rw [Measure.map_map (h0.prodMk hshift) measurable_consStream]
    have : ((fun k : Nat → X => (k 0, (fun n => k (n + 1) : Nat → X))) ∘ consStream) = id := by
      funext q; rfl
    rw [this, Measure.map_id]
  exact fresh_comp hb hf

end

end Verif.Order
