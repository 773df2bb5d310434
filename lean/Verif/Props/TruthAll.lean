/-
C142: the posterior of several likelihoods prefers the parameters the data were drawn with.
-/
import Verif.Lemmas.TruthAll
import Verif.Props.Truth
import Verif.Props.Peak

namespace Verif.Llh
open Verif Comp MeasureTheory ProbabilityTheory

section
variable {K Ω : Type} [MeasurableSpace Ω]

/-- **C142 (on average).** Contexts with given parameters and likelihoods, whose data vary.  Let the number of events found in each bin of
each likelihood be on average `truth`.  Wherever every bin expects events in every repetition the log posterior is finite for all data, and
its average is short of the largest possible one, that of predictions equal to the truth, by at least the mean distance between the
predictions and the truth. -/
theorem C142_expected (μ : Measure Ω) [IsProbabilityMeasure μ] (c : Ω → Ctx.Ctx K) (pm0 : Parameter.PM) (hpm : ∀ ω, (c ω).pm = pm0)
    (es : List (Ω → String × Ctx.Obj K)) (hes : ∀ ω, (c ω).likelihoods = es.map (fun e => e ω)) (fs : List (Series K Ω))
    (hfs : List.Forall₂ (fun e f => Series.Made f e) es fs) (hnames : (fs.map Series.name).Nodup) :
    ∃ order : String → String → List Plugin,
      (∀ f ∈ fs, ∀ a, Part.sim a ∈ f.parts → Topological a.registry (f.setup.binsOn ++ ["eff"]) (order f.name a.comp)) ∧
      ∀ (keys : Nat → K) batch q, (∀ f ∈ fs, ∀ p ∈ f.parts, p.name ++ "_rate" ∈ (replaceAlias f.setup.al q).keys) →
        ∃ sss : Nat → List (List (Sample ℝ)),
          (∀ i, ∃ key', ∀ ω, DrawsAll order batch q (fs.map (Series.at · ω)) (keys i) (sss i) key') ∧
          ∀ repeats, (∀ i < Ctx.evaluations repeats, ∀ ss ∈ sss i, ∀ s ∈ ss, s.Normalisable) →
            (∀ i < Ctx.evaluations repeats, ∀ p, 0 < contents fs (sss i) p) →
            ∀ sig ord params pm lp, Parameter.setParameter pm0 params .none = (pm, .ok ()) → pm.vals = floats q →
              Parameter.logPriorOver sig pm ord = .ok (.fin lp) →
              ∃ v : Ω → ℝ, (∀ ω, (Ctx.logPosterior sig ord keys (c ω) params batch repeats).2 = .ok (.fin (v ω), .fin lp)) ∧
                ∀ truth : AllBins fs → ℝ, (∀ p, 0 < truth p) → (∀ p, Integrable (fun ω => (counts fs ω p : ℝ)) μ) →
                  (∀ p, ∫ ω, (counts fs ω p : ℝ) ∂μ = truth p) →
                  Integrable v μ ∧
                  ∫ ω, v ω ∂μ + meanOf (Ctx.evaluations repeats) (fun i => distanceAll truth (contents fs (sss i)))
                    ≤ poissonAll truth truth + lp := by
  obtain ⟨order, h1, h2⟩ := series_posterior c pm0 hpm es hes fs hfs hnames
  refine ⟨order, h1, fun keys batch q hr => ?_⟩
  obtain ⟨sss, d, hv⟩ := h2 keys batch q hr
  refine ⟨sss, d, fun repeats hn hp sig ord params pm lp hset hq hlp => ?_⟩
  refine ⟨_, (hv repeats hn sig ord params pm lp hset hq hlp).1 hp, fun truth ht hi hl => ?_⟩
  have hm := fun i => poissonAll_mean μ truth (contents fs (sss i)) hi hl
  obtain ⟨m1, m2⟩ := meanOf_integral μ (Ctx.evaluations repeats)
    (fun i ω => poissonAll (fun p => (counts fs ω p : ℝ)) (contents fs (sss i))) (fun i _ => (hm i).1)
  refine ⟨m1.add (integrable_const _), ?_⟩
  rw [integral_add m1 (integrable_const _), m2]
  simp only [(hm _).2, integral_const, probReal_univ, one_smul]
  have hpos : 0 < Ctx.evaluations repeats := by unfold Ctx.evaluations; omega
  have := meanOf_le (n := Ctx.evaluations repeats) hpos
    (g := fun i => poissonAll truth (contents fs (sss i)) + distanceAll truth (contents fs (sss i))) (B := poissonAll truth truth)
    (fun i hi => poissonAll_gap truth _ ht (hp i hi))
  rw [meanOf_add] at this
  linarith

/-- **C142 (truth).** Let the data be on average what the likelihoods predict at the parameters `q0`.  At every other parameters, keys and batch
sizes the log posterior is minus infinity for all data if some bin expects no event.  Otherwise its average is smaller than at `q0`
by at least the distance of the predictions plus the difference of the log priors, and by no more than this difference only if the predictions agree in
every bin.  If the counts are independent and Poisson distributed, the probability that the data nevertheless prefer the other parameters is at
most the exponential of minus half of that sum. -/
theorem C142_truth (μ : Measure Ω) [IsProbabilityMeasure μ] (c : Ω → Ctx.Ctx K) (pm0 : Parameter.PM) (hpm : ∀ ω, (c ω).pm = pm0)
    (es : List (Ω → String × Ctx.Obj K)) (hes : ∀ ω, (c ω).likelihoods = es.map (fun e => e ω)) (fs : List (Series K Ω))
    (hfs : List.Forall₂ (fun e f => Series.Made f e) es fs) (hnames : (fs.map Series.name).Nodup) :
    ∃ order : String → String → List Plugin,
      (∀ f ∈ fs, ∀ a, Part.sim a ∈ f.parts → Topological a.registry (f.setup.binsOn ++ ["eff"]) (order f.name a.comp)) ∧
      ∀ (keys0 : Nat → K) batch0 q0 (keys : Nat → K) batch q,
        (∀ f ∈ fs, ∀ p ∈ f.parts, p.name ++ "_rate" ∈ (replaceAlias f.setup.al q0).keys) →
        (∀ f ∈ fs, ∀ p ∈ f.parts, p.name ++ "_rate" ∈ (replaceAlias f.setup.al q).keys) →
        ∃ sss0 sss : List (List (Sample ℝ)),
          (∃ key', ∀ ω, DrawsAll order batch0 q0 (fs.map (Series.at · ω)) (keys0 0) sss0 key') ∧
          (∃ key', ∀ ω, DrawsAll order batch q (fs.map (Series.at · ω)) (keys 0) sss key') ∧
          ((∀ ss ∈ sss0, ∀ s ∈ ss, s.Normalisable) → (∀ ss ∈ sss, ∀ s ∈ ss, s.Normalisable) → (∀ p, 0 < contents fs sss0 p) →
            ∀ sig ord params0 pmA lp0 params pmB lp,
              Parameter.setParameter pm0 params0 .none = (pmA, .ok ()) → pmA.vals = floats q0 →
              Parameter.logPriorOver sig pmA ord = .ok (.fin lp0) →
              Parameter.setParameter pm0 params .none = (pmB, .ok ()) → pmB.vals = floats q →
              Parameter.logPriorOver sig pmB ord = .ok (.fin lp) →
              ∃ v0 : Ω → ℝ, (∀ ω, (Ctx.logPosterior sig ord keys0 (c ω) params0 batch0 1).2 = .ok (.fin (v0 ω), .fin lp0)) ∧
                ((∃ p, contents fs sss p ≤ 0) → ∀ ω, (Ctx.logPosterior sig ord keys (c ω) params batch 1).2 = .ok (.ninf, .fin lp)) ∧
                ((∀ p, 0 < contents fs sss p) →
                  ∃ v : Ω → ℝ, (∀ ω, (Ctx.logPosterior sig ord keys (c ω) params batch 1).2 = .ok (.fin (v ω), .fin lp)) ∧
                    ((∀ p, Integrable (fun ω => (counts fs ω p : ℝ)) μ) → (∀ p, ∫ ω, (counts fs ω p : ℝ) ∂μ = contents fs sss0 p) →
                      Integrable v0 μ ∧ Integrable v μ ∧
                      ∫ ω, v ω ∂μ + (distanceAll (contents fs sss0) (contents fs sss) + (lp0 - lp)) ≤ ∫ ω, v0 ω ∂μ ∧
                      (∫ ω, v ω ∂μ + (lp0 - lp) = ∫ ω, v0 ω ∂μ ↔ ∀ p, contents fs sss p = contents fs sss0 p)) ∧
                    ((∀ p, Measurable (fun ω => counts fs ω p)) → iIndepFun (fun p ω => counts fs ω p) μ →
                      (∀ p, μ.map (fun ω => counts fs ω p) = poissonMeasure (contents fs sss0 p).toNNReal) →
                      μ.real {ω | v0 ω ≤ v ω}
                        ≤ Real.exp (-(distanceAll (contents fs sss0) (contents fs sss) + (lp0 - lp)) / 2)))) := by
  obtain ⟨order, h1, h2⟩ := series_posterior c pm0 hpm es hes fs hfs hnames
  refine ⟨order, h1, fun keys0 batch0 q0 keys batch q hr0 hr => ?_⟩
  obtain ⟨s0, d0, hv0⟩ := h2 keys0 batch0 q0 hr0
  obtain ⟨s1, d1, hv1⟩ := h2 keys batch q hr
  refine ⟨s0 0, s1 0, d0 0, d1 0, fun hn0 hn hp0 sig ord params0 pmA lp0 params pmB lp hsA hqA hlA hsB hqB hlB => ?_⟩
  have ev : ∀ i < Ctx.evaluations 1, i = 0 := by
    intro i hi
    unfold Ctx.evaluations at hi
    omega
  obtain ⟨a0, _⟩ := hv0 1 (fun i hi => by rw [ev i hi]; exact hn0) sig ord params0 pmA lp0 hsA hqA hlA
  obtain ⟨a1, b1⟩ := hv1 1 (fun i hi => by rw [ev i hi]; exact hn) sig ord params pmB lp hsB hqB hlB
  have one : ∀ g : Nat → ℝ, meanOf (Ctx.evaluations 1) g = g 0 := by
    intro g
    simp [meanOf, Ctx.evaluations]
  simp only [one] at a0 a1
  refine ⟨_, a0 (fun i hi => by rw [ev i hi]; exact hp0), fun ⟨p, hneg⟩ => b1 ⟨0, by simp [Ctx.evaluations], p, hneg⟩, fun hp => ?_⟩
  refine ⟨_, a1 (fun i hi => by rw [ev i hi]; exact hp), fun hi hl => ?_, fun hmeas hind hlaw => ?_⟩
  · obtain ⟨i0, e0⟩ := poissonAll_mean μ _ (contents fs (s0 0)) hi hl
    obtain ⟨i1, e1⟩ := poissonAll_mean μ _ (contents fs (s1 0)) hi hl
    refine ⟨i0.add (integrable_const _), i1.add (integrable_const _), ?_⟩
    rw [integral_add i0 (integrable_const _), integral_add i1 (integrable_const _), e0, e1]
    simp only [integral_const, probReal_univ, one_smul]
    have hg := poissonAll_gap _ _ hp0 hp
    refine ⟨by linarith, fun he => ?_, fun he => ?_⟩
    · have h0 := distanceAll_nonneg (contents fs (s0 0)) (contents fs (s1 0))
      exact fun p => congrFun (distanceAll_zero _ _ hp0 hp (by linarith)) p
    · rw [show contents fs (s1 0) = contents fs (s0 0) from funext he]
      ring
  · have := Truth.wrong_preferred_by μ (fun p ω => counts fs ω p) hmeas (contents fs (s0 0)) (contents fs (s1 0)) hp0 hp hind hlaw (lp0 - lp)
    refine le_trans (le_of_eq ?_) this
    congr 1
    ext ω
    simp only [Set.mem_ofPred_eq, poissonAll]
    constructor <;> intro h <;> linarith

end

/-! ### A concrete case: Poisson counts in two likelihoods of two bins each -/

/-- Independent Poisson counts in both likelihoods with the means expected for the key `true`. -/
noncomputable def twoLaw : Measure (Bool × TwoBins → ℕ) :=
  Measure.pi (fun p => poissonMeasure (expectedIn [noisySample 10 true] p.2).toNNReal)

/-- The likelihood `"l"` (first) or `"m"` (second) for these counts. -/
noncomputable def twoSeries (m : Bool) : Series Bool (Bool × TwoBins → ℕ) :=
  ⟨if m then "m" else "l", noisySetup, [.sim exArgs], .irreg1 [0, 1, 2], fun ω => countsEvents (fun c => ω (m, c))⟩

theorem twoSeries_mem {P : Series Bool (Bool × TwoBins → ℕ) → Prop} (h : ∀ m, P (twoSeries m)) : ∀ f ∈ [twoSeries false, twoSeries true], P f := by
  intro f hf
  simp only [List.mem_cons, List.not_mem_nil, or_false] at hf
  rcases hf with rfl | rfl <;> exact h _

/-- Which count belongs to a bin. -/
noncomputable def twoPlace : AllBins [twoSeries false, twoSeries true] → Bool × TwoBins
  | ⟨0, c⟩ => (false, c)
  | ⟨1, c⟩ => (true, c)

theorem twoPlace_injective : Function.Injective twoPlace := by
  rintro ⟨i, c⟩ ⟨j, d⟩ h
  match i, j, c, d with
  | 0, 0, c, d =>
    have h' : ((false, c) : Bool × TwoBins) = (false, d) := h
    rw [show c = d from (Prod.mk.inj h').2]
  | 0, 1, c, d =>
    have h' : ((false, c) : Bool × TwoBins) = (true, d) := h
    exact absurd (Prod.mk.inj h').1 (by decide)
  | 1, 0, c, d =>
    have h' : ((true, c) : Bool × TwoBins) = (false, d) := h
    exact absurd (Prod.mk.inj h').1 (by decide)
  | 1, 1, c, d =>
    have h' : ((true, c) : Bool × TwoBins) = (true, d) := h
    rw [show c = d from (Prod.mk.inj h').2]

theorem twoCounts (ω : Bool × TwoBins → ℕ) (p : AllBins [twoSeries false, twoSeries true]) :
    counts [twoSeries false, twoSeries true] ω p = ω (twoPlace p) := by
  obtain ⟨i, c⟩ := p
  match i, c with
  | 0, c => exact countsIn (fun c => ω (false, c)) c c.2
  | 1, c => exact countsIn (fun c => ω (true, c)) c c.2

theorem twoContents (k : Bool) (p : AllBins [twoSeries false, twoSeries true]) :
    contents [twoSeries false, twoSeries true] [[noisySample 10 k], [noisySample 10 k]] p = expectedIn [noisySample 10 k] (twoPlace p).2 := by
  obtain ⟨i, c⟩ := p
  match i, c with
  | 0, c => rfl
  | 1, c => rfl

/-- Non-vacuity of C142: two likelihoods together. -/
example (eq : Equi ℝ) : ∃ (c : (Bool × TwoBins → ℕ) → Ctx.Ctx Bool) (v0 v : (Bool × TwoBins → ℕ) → ℝ),
    (∀ ω, (c ω).likelihoods.length = 2) ∧
    (∀ ω, (Ctx.logPosterior (fun _ => none) ["er_rate"] (fun _ => true) (c ω) (.dict [("er_rate", .fin 3)]) 10 1).2
      = .ok (.fin (v0 ω), .fin (-(3 - 3) ^ 2 / 2))) ∧
    (∀ ω, (Ctx.logPosterior (fun _ => none) ["er_rate"] (fun _ => false) (c ω) (.dict [("er_rate", .fin 3)]) 10 1).2
      = .ok (.fin (v ω), .fin (-(3 - 3) ^ 2 / 2))) ∧
    twoLaw.real {ω | v0 ω ≤ v ω}
      ≤ Real.exp (-(∑ p : AllBins [twoSeries false, twoSeries true],
          (√(expectedIn [noisySample 10 true] (twoPlace p).2) - √(expectedIn [noisySample 10 false] (twoPlace p).2)) ^ 2) / 2) := by
  obtain ⟨st, g', hb⟩ := noisyBuild
  choose b i1 i2 i3 using countsInit eq
  have : IsProbabilityMeasure twoLaw := by unfold twoLaw; infer_instance
  let e : Bool → (Bool × TwoBins → ℕ) → String × Ctx.Obj Bool := fun m ω =>
    (if m then "m" else "l", .binned [] (b (fun c => ω (m, c))).dataHist st)
  let c : (Bool × TwoBins → ℕ) → Ctx.Ctx Bool := fun ω => ⟨[], peakPM 3, [], [e false ω, e true ω]⟩
  have made : ∀ m, Series.Made (twoSeries m) (e m) := fun m =>
    ⟨noisyProper, _, st, g', hb, fun ω => ⟨eq, _, _, b (fun c => ω (m, c)), i1 _, i2 _, i3 _, rfl⟩⟩
  obtain ⟨order, h1, h2⟩ := C142_truth twoLaw c (peakPM 3) (fun _ => rfl) [e false, e true] (fun _ => rfl)
    [twoSeries false, twoSeries true] (.cons (made false) (.cons (made true) .nil)) (by simp [twoSeries])
  obtain ⟨s0, s1, ⟨k0, d0⟩, ⟨k1, d1⟩, hv⟩ := h2 (fun _ => true) 10 [("er_rate", 3)] (fun _ => false) 10 [("er_rate", 3)]
    (twoSeries_mem fun m => peakRates 3) (twoSeries_mem fun m => peakRates 3)
  have shape : ∀ {k k' : Bool} {l : List (List (Sample ℝ))} {ω : Bool × TwoBins → ℕ},
      DrawsAll order 10 [("er_rate", 3)] ([twoSeries false, twoSeries true].map (Series.at · ω)) k l k' →
      l = [[noisySample 10 k], [noisySample 10 k]] := by
    intro k k' l ω hd
    cases hd with
    | cons a1 a2 =>
      cases a2 with
      | cons a3 a4 =>
        cases a4
        obtain ⟨rfl, rfl⟩ := noisyDraws (h1 (twoSeries false) (by simp) exArgs (by simp [twoSeries])) a1
        obtain ⟨rfl, rfl⟩ := noisyDraws (h1 (twoSeries true) (by simp) exArgs (by simp [twoSeries])) a3
        simp
  have hs0 := shape (d0 (fun _ => 0))
  have hs1 := shape (d1 (fun _ => 0))
  subst hs0 hs1
  have norm : ∀ k, ∀ ss ∈ [[noisySample 10 k], [noisySample 10 k]], ∀ s ∈ ss, s.Normalisable := by
    intro k ss hss s hs
    simp only [List.mem_cons, List.not_mem_nil, or_false, or_self] at hss
    subst hss
    simp only [List.mem_singleton] at hs
    subst hs
    exact (noisyExpected _ _).1
  have pos : ∀ k p, 0 < contents [twoSeries false, twoSeries true] [[noisySample 10 k], [noisySample 10 k]] p := by
    intro k p
    rw [twoContents]
    exact noisyPos 10 k _ (List.mem_toFinset.1 (twoPlace p).2.2)
  obtain ⟨v0, f0, -, e4⟩ := hv (norm _) (norm _) (pos _) (fun _ => none) ["er_rate"] (.dict [("er_rate", .fin 3)]) (peakPM 3) _
    (.dict [("er_rate", .fin 3)]) (peakPM 3) _ (peakSet 3) rfl (peakPrior 3 (by norm_num) (by norm_num)) (peakSet 3) rfl
    (peakPrior 3 (by norm_num) (by norm_num))
  obtain ⟨v, f1, -, e5⟩ := e4 (pos _)
  refine ⟨c, v0, v, fun _ => rfl, f0, f1, ?_⟩
  have hc : ∀ p, (fun ω => counts [twoSeries false, twoSeries true] ω p) = fun ω => ω (twoPlace p) := fun p => funext fun ω => twoCounts ω p
  have := e5 (fun p => by rw [hc]; exact measurable_pi_apply _) (by
      simp only [twoCounts]
      exact (iIndepFun_pi (X := fun _ x => x) (μ := fun p : Bool × TwoBins => poissonMeasure (expectedIn [noisySample 10 true] p.2).toNNReal)
        (fun _ => aemeasurable_id)).precomp twoPlace_injective)
    (fun p => by
      rw [hc, twoContents]
      exact (measurePreserving_eval _ (twoPlace p)).map_eq)
  simpa only [distanceAll, twoContents, sub_self, add_zero] using this

end Verif.Llh
