/-
Helper lemmas for C142: the log posterior of a context whose data vary.
-/
import Verif.Spec.TruthAll
import Verif.Lemmas.Truth
import Verif.Lemmas.WholeChain
import Verif.Props.Whole
import Verif.Lemmas.Peak
import Verif.Lemmas.Noise

namespace Verif.Llh
open Verif Comp MeasureTheory ProbabilityTheory

variable {K Ω : Type}

theorem all_series (es : List (Ω → String × Ctx.Obj K)) (fs : List (Series K Ω))
    (hfs : List.Forall₂ (fun e f => Series.Made f e) es fs) (hnames : (fs.map Series.name).Nodup) :
    ∃ order : String → String → List Plugin,
      (∀ f ∈ fs, ∀ a, Part.sim a ∈ f.parts → Topological a.registry (f.setup.binsOn ++ ["eff"]) (order f.name a.comp)) ∧
      ∀ order' : String → String → List Plugin, (∀ f ∈ fs, order' f.name = order f.name) → ∀ key batch q,
        (∀ f ∈ fs, ∀ p ∈ f.parts, p.name ++ "_rate" ∈ (replaceAlias f.setup.al q).keys) →
        ∃ sss key', (∀ ω, DrawsAll order' batch q (fs.map (Series.at · ω)) key sss key') ∧ sss.length = fs.length ∧
          ((∀ ss ∈ sss, ∀ s ∈ ss, s.Normalisable) → ∀ ω,
            Ctx.Evals batch (floats q) (es.map (fun e => e ω)) key (List.zipWith valueOf (fs.map (Series.at · ω)) sss)) := by
  induction hfs with
  | nil => exact ⟨fun _ _ => [], by simp, fun _ _ key _ _ _ => ⟨[], key, fun _ => .nil _, rfl, fun _ _ => .nil _⟩⟩
  | @cons e f es fs hd _ ih =>
    obtain ⟨hprop, g, st, g', hbuild, hdat⟩ := hd
    rw [List.map_cons, List.nodup_cons] at hnames
    obtain ⟨order, h1, h2⟩ := ih hnames.2
    obtain ⟨ord, h3, h4⟩ := log_likelihood_of_bins f.bins f.setup f.parts hprop g g' st hbuild
    have hne : ∀ f' ∈ fs, f'.name ≠ f.name := fun f' hf' hn => hnames.1 (List.mem_map.2 ⟨f', hf', hn⟩)
    refine ⟨fun n => if n = f.name then ord else order n, ?_, ?_⟩
    · intro f' hf' a ha
      rcases List.mem_cons.1 hf' with rfl | hf'
      · simpa using h3 a ha
      · have := hne f' hf'
        simp only [this, if_false]
        exact h1 f' hf' a ha
    · intro order' ho key batch q hr
      obtain ⟨ss, k1, d1, d2⟩ := h4 key batch q (hr f (by simp))
      obtain ⟨sss, k2, i1, i2, i3⟩ := h2 order' (fun f' hf' => by
        rw [ho f' (by simp [hf'])]
        exact if_neg (hne f' hf')) k1 batch q (fun f' hf' => hr f' (by simp [hf']))
      refine ⟨ss :: sss, k2, fun ω => .cons ?_ (i1 ω), by simp [i2], ?_⟩
      · show Draws f.setup (order' f.name) batch (replaceAlias f.setup.al q) f.parts key ss k1
        rw [ho f (by simp)]
        simpa using d1
      · intro hn ω
        rw [List.map_cons, List.map_cons, List.zipWith_cons_cons]
        refine .cons (k' := k1) ?_ (i3 (fun ss' hs' => hn ss' (by simp [hs'])) ω)
        obtain ⟨eq, cfg, load, b, hinit, hbins, hdata, he⟩ := hdat ω
        obtain ⟨v1, v2⟩ := d2 (hn ss (by simp)) eq cfg load b hinit hbins
        rw [hbins, hdata] at v1
        rw [hbins] at v2
        rw [he]
        simp only [Ctx.GivesLogL]
        unfold valueOf
        split
        · rename_i hp; exact v1 hp
        · rename_i hp
          push Not at hp
          exact v2 hp

theorem zipWith_sum_fin {α β : Type} (F : α → β → ℝ) (d : β) (as : List α) (bs : List β) (h : bs.length = as.length) :
    (List.zipWith F as bs).sum = ∑ i : Fin as.length, F as[i] (bs.getD i d) := by
  induction as generalizing bs with
  | nil => simp
  | cons a as ih =>
    match bs, h with
    | b :: bs, h =>
      rw [List.zipWith_cons_cons, List.sum_cons, ih bs (by simpa using h)]
      rw [show (∑ i : Fin (a :: as).length, F (a :: as)[i] ((b :: bs).getD i d))
        = ∑ i : Fin (as.length + 1), F ((a :: as)[(i : Nat)]'i.2) ((b :: bs).getD i d) from rfl, Fin.sum_univ_succ]
      simp

theorem bins_sum (bins : Bins ℝ) (hnd : (binList bins).Nodup) (F : Nat × Nat → ℝ) :
    ((binList bins).map F).sum = ∑ c : {c // c ∈ (binList bins).toFinset}, F c := by
  rw [← List.sum_toFinset F hnd, ← Finset.sum_coe_sort]

/-- The log likelihoods of all data added, as a sum over all bins. -/
theorem total_eq (fs : List (Series K Ω)) (hp : ∀ f ∈ fs, (binList f.bins).Nodup) (sss : List (List (Sample ℝ)))
    (hl : sss.length = fs.length) (ω : Ω) :
    (List.zipWith (fun f ss => binnedLogL f.bins f.data ss) (fs.map (Series.at · ω)) sss).sum
      = poissonAll (fun p => (counts fs ω p : ℝ)) (contents fs sss) := by
  rw [List.zipWith_map_left, zipWith_sum_fin _ [] _ _ hl]
  unfold poissonAll
  rw [Fintype.sum_sigma]
  refine Finset.sum_congr rfl fun i _ => ?_
  show binnedLogL (fs[i]).bins ((fs[i]).data ω) _ = _
  unfold binnedLogL
  exact bins_sum (fs[i]).bins (hp _ (List.getElem_mem i.2)) _

theorem positive_iff (fs : List (Series K Ω)) (sss : List (List (Sample ℝ))) (hl : sss.length = fs.length) (ω : Ω) :
    List.Forall₂ (fun f ss => ∀ b ∈ binList f.bins, 0 < expectedIn ss b) (fs.map (Series.at · ω)) sss ↔ ∀ p, 0 < contents fs sss p := by
  rw [List.forall₂_iff_get]
  constructor
  · rintro ⟨_, h⟩ ⟨i, c⟩
    have := h i (by simp) (by rw [hl]; exact i.2) c (by
      have := List.mem_toFinset.1 c.2
      simpa [Series.at] using this)
    simpa [contents, List.getD_eq_getElem?_getD, List.getElem?_eq_getElem (show (i : Nat) < sss.length by rw [hl]; exact i.2)] using this
  · intro h
    refine ⟨by simp [hl], fun i h1 h2 b hb => ?_⟩
    have h3 : i < fs.length := by simpa using h1
    have := h ⟨⟨i, h3⟩, ⟨b, List.mem_toFinset.2 (by simpa [Series.at] using hb)⟩⟩
    simpa [contents, List.getD_eq_getElem?_getD, List.getElem?_eq_getElem h2] using this

/-- The log posterior for varying data. -/
theorem series_posterior (c : Ω → Ctx.Ctx K) (pm0 : Parameter.PM) (hpm : ∀ ω, (c ω).pm = pm0) (es : List (Ω → String × Ctx.Obj K))
    (hes : ∀ ω, (c ω).likelihoods = es.map (fun e => e ω)) (fs : List (Series K Ω))
    (hfs : List.Forall₂ (fun e f => Series.Made f e) es fs) (hnames : (fs.map Series.name).Nodup) :
    ∃ order : String → String → List Plugin,
      (∀ f ∈ fs, ∀ a, Part.sim a ∈ f.parts → Topological a.registry (f.setup.binsOn ++ ["eff"]) (order f.name a.comp)) ∧
      ∀ (keys : Nat → K) batch q, (∀ f ∈ fs, ∀ p ∈ f.parts, p.name ++ "_rate" ∈ (replaceAlias f.setup.al q).keys) →
        ∃ sss : Nat → List (List (Sample ℝ)),
          (∀ i, ∃ key', ∀ ω, DrawsAll order batch q (fs.map (Series.at · ω)) (keys i) (sss i) key') ∧
          ∀ repeats, (∀ i < Ctx.evaluations repeats, ∀ ss ∈ sss i, ∀ s ∈ ss, s.Normalisable) →
            ∀ sig ord params pm lp, Parameter.setParameter pm0 params .none = (pm, .ok ()) → pm.vals = floats q →
              Parameter.logPriorOver sig pm ord = .ok (.fin lp) →
              ((∀ i < Ctx.evaluations repeats, ∀ p, 0 < contents fs (sss i) p) → ∀ ω,
                (Ctx.logPosterior sig ord keys (c ω) params batch repeats).2 =
                  .ok (.fin (meanOf (Ctx.evaluations repeats) (fun i => poissonAll (fun p => (counts fs ω p : ℝ)) (contents fs (sss i))) + lp),
                    .fin lp)) ∧
              ((∃ i < Ctx.evaluations repeats, ∃ p, contents fs (sss i) p ≤ 0) → ∀ ω,
                (Ctx.logPosterior sig ord keys (c ω) params batch repeats).2 = .ok (.ninf, .fin lp)) := by
  obtain ⟨order, h1, h2⟩ := all_series es fs hfs hnames
  have hnd : ∀ f ∈ fs, (binList f.bins).Nodup := by
    intro f hf
    obtain ⟨e, _, he⟩ := Parameter.partner (List.Forall₂.flip hfs) f hf
    exact (C79_bins f.bins he.1.ascending).1
  refine ⟨order, h1, fun keys batch q hr => ?_⟩
  choose sss key' d0 l0 e0 using fun i => h2 order (fun _ _ => rfl) (keys i) batch q hr
  refine ⟨sss, fun i => ⟨_, d0 i⟩, fun repeats hn sig ord params pm lp hset hq hlp => ⟨fun hp ω => ?_, ?_⟩⟩
  · have e4 : ∀ i < Ctx.evaluations repeats, Ctx.Evals batch pm.vals (c ω).likelihoods (keys i)
        ((List.zipWith (fun f ss => binnedLogL f.bins f.data ss) (fs.map (Series.at · ω)) (sss i)).map XF.fin) := by
      intro i hi
      rw [← values_fin _ _ ((positive_iff fs (sss i) (l0 i) ω).2 (hp i hi)), hq, hes]
      exact e0 i (hn i hi) ω
    have := Ctx.C40_value sig ord keys (c ω) params batch repeats pm lp (by rw [hpm]; exact hset) hlp _ e4
    simp only [total_eq fs hnd _ (l0 _)] at this
    exact this
  · rintro ⟨i, hi, p, hneg⟩ ω
    refine Ctx.C40_minus_infinity sig ord keys (c ω) params batch repeats pm lp (by rw [hpm]; exact hset) hlp
      (fun i => List.zipWith valueOf (fs.map (Series.at · ω)) (sss i)) (fun i hi => by rw [hq, hes]; exact e0 i (hn i hi) ω) ?_ ⟨i, hi, ?_⟩
    · exact fun j _ v hv => values_good _ _ v hv
    · exact values_ninf _ _ (by simp [l0 i]) (fun hh => absurd ((positive_iff fs (sss i) (l0 i) ω).1 hh p) (not_lt.2 hneg))

theorem meanOf_add (n : Nat) (g h : Nat → ℝ) : meanOf n (fun i => g i + h i) = meanOf n g + meanOf n h := by
  rw [meanOf_eq, meanOf_eq, meanOf_eq, Finset.sum_add_distrib, add_div]

theorem meanOf_le {n : Nat} (hn : 0 < n) {g : Nat → ℝ} {B : ℝ} (h : ∀ i < n, g i ≤ B) : meanOf n g ≤ B := by
  have hn' : (0 : ℝ) < n := by exact_mod_cast hn
  rw [meanOf_eq, div_le_iff₀ hn']
  refine (Finset.sum_le_card_nsmul _ _ B fun i hi => h i (Finset.mem_range.1 hi)).trans_eq ?_
  rw [Finset.card_range, nsmul_eq_mul, mul_comm]

section
variable [MeasurableSpace Ω]

theorem meanOf_integral (μ : Measure Ω) (n : Nat) (g : Nat → Ω → ℝ) (h : ∀ i < n, Integrable (g i) μ) :
    Integrable (fun ω => meanOf n (fun i => g i ω)) μ ∧ ∫ ω, meanOf n (fun i => g i ω) ∂μ = meanOf n (fun i => ∫ ω, g i ω ∂μ) := by
  simp only [meanOf_eq]
  have hs := integrable_finsetSum (Finset.range n) fun i hi => h i (Finset.mem_range.1 hi)
  refine ⟨hs.div_const _, ?_⟩
  rw [integral_div, integral_finsetSum _ fun i hi => h i (Finset.mem_range.1 hi)]

theorem poissonAll_mean (μ : Measure Ω) [IsProbabilityMeasure μ] {fs : List (Series K Ω)} (l m : AllBins fs → ℝ)
    (hi : ∀ p, Integrable (fun ω => (counts fs ω p : ℝ)) μ) (hl : ∀ p, ∫ ω, (counts fs ω p : ℝ) ∂μ = l p) :
    Integrable (fun ω => poissonAll (fun p => (counts fs ω p : ℝ)) m) μ ∧
      ∫ ω, poissonAll (fun p => (counts fs ω p : ℝ)) m ∂μ = poissonAll l m := by
  have j : ∀ p, Integrable (fun ω => (counts fs ω p : ℝ) * Real.log (m p) - m p) μ :=
    fun p => ((hi p).mul_const _).sub (integrable_const _)
  unfold poissonAll
  refine ⟨integrable_finsetSum _ fun p _ => j p, ?_⟩
  rw [integral_finsetSum _ fun p _ => j p]
  refine Finset.sum_congr rfl fun p _ => ?_
  rw [integral_sub ((hi p).mul_const _) (integrable_const _), integral_mul_const, hl p]
  simp

end

theorem poissonAll_gap {fs : List (Series K Ω)} (l m : AllBins fs → ℝ) (hl : ∀ p, 0 < l p) (hm : ∀ p, 0 < m p) :
    poissonAll l m + distanceAll l m ≤ poissonAll l l := by
  unfold poissonAll distanceAll
  rw [← Finset.sum_add_distrib]
  refine Finset.sum_le_sum fun p _ => ?_
  have := Truth.gap_ge (hl p) (hm p)
  linarith

theorem distanceAll_nonneg {fs : List (Series K Ω)} (l m : AllBins fs → ℝ) : 0 ≤ distanceAll l m :=
  Finset.sum_nonneg fun _ _ => sq_nonneg _

theorem distanceAll_zero {fs : List (Series K Ω)} (l m : AllBins fs → ℝ) (hl : ∀ p, 0 < l p) (hm : ∀ p, 0 < m p)
    (h : distanceAll l m = 0) : m = l := by
  unfold distanceAll at h
  rw [Finset.sum_eq_zero_iff_of_nonneg (fun _ _ => sq_nonneg _)] at h
  funext p
  have h1 := pow_eq_zero_iff (two_ne_zero) |>.1 (h p (Finset.mem_univ _))
  exact ((Real.sqrt_inj (hl p).le (hm p).le).1 (by linarith)).symm

end Verif.Llh
