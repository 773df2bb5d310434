/-
C133: data drawn from the model prefer the parameters they were drawn with.
-/
import Verif.Lemmas.Truth
import Verif.Props.Noise

namespace Verif.Llh
open Verif Comp MeasureTheory ProbabilityTheory

section
variable {K Ω : Type} [MeasurableSpace Ω]

/-- **C133 (on average).** Data sets vary, for a likelihood with given bins.  Let the number of events found in each bin be on average
`truth`.  Wherever every bin expects events the log likelihood is finite for every data set, and its average is short of the largest possible
one, that of a prediction equal to the truth, by at least the distance between the prediction and the truth. -/
theorem C133_expected (μ : Measure Ω) [IsProbabilityMeasure μ] (eq : Equi ℝ) (cfg : Config ℝ)
    (load : Ω → List String → Res (List (List (Option ℝ)))) (b : Ω → Built ℝ) (bins : Bins ℝ) (h : ∀ ω, init eq cfg (load ω) = .ok (b ω))
    (hbins : ∀ ω, (b ω).bins = bins) (S : Setup K) (parts : List Part) (hS : S.Proper bins parts) (g g' : FnCache) (st : State K XF)
    (hb : S.build parts (⟨[], []⟩, g) = ((st, g'), .ok ())) :
    ∃ order : String → List Plugin,
      (∀ a, Part.sim a ∈ parts → Topological a.registry (S.binsOn ++ ["eff"]) (order a.comp)) ∧
      ∀ key batch q, (∀ p ∈ parts, p.name ++ "_rate" ∈ (replaceAlias S.al q).keys) →
        ∃ ss key', Draws S order batch (replaceAlias S.al q) parts key ss key' ∧
          ((∀ s ∈ ss, s.Normalisable) → (∀ c ∈ binList bins, 0 < expectedIn ss c) →
            ∃ v : Ω → ℝ, (∀ ω, getLogLikelihood S.al (b ω).dataHist st key batch (floats q) = .ok (key', .fin (v ω))) ∧
              ∀ truth : Nat × Nat → ℝ, (∀ c ∈ binList bins, 0 < truth c) →
                (∀ c ∈ binList bins, Integrable (fun ω => (countIn bins (b ω).data c : ℝ)) μ) →
                (∀ c ∈ binList bins, ∫ ω, (countIn bins (b ω).data c : ℝ) ∂μ = truth c) →
                Integrable v μ ∧
                ∫ ω, v ω ∂μ + distance bins truth (expectedIn ss)
                  ≤ ((binList bins).map (fun c => truth c * Real.log (truth c) - truth c)).sum) := by
  obtain ⟨order, h1, h2⟩ := log_likelihood_of_bins bins S parts hS g g' st hb
  refine ⟨order, h1, fun key batch q hr => ?_⟩
  obtain ⟨ss, key', d, hv⟩ := h2 key batch q hr
  refine ⟨ss, key', d, fun hn hp => ⟨fun ω => binnedLogL bins (b ω).data ss, fun ω => ?_, ?_⟩⟩
  · have := (hv hn eq cfg (load ω) (b ω) (h ω) (hbins ω)).1 (by rw [hbins]; exact hp)
    rw [this, hbins]
  · intro truth ht hi hl
    obtain ⟨a1, a2⟩ := logL_over_data μ (binList bins) (fun c ω => countIn bins (b ω).data c) truth (expectedIn ss) hi hl
    refine ⟨a1, ?_⟩
    unfold binnedLogL distance
    rw [a2]
    exact gap_sum _ _ _ ht hp

/-- **C133 (truth).** If the data are on average what the parameters `q0` predict, then at every other parameters, keys and batch sizes the
log likelihood is minus infinity for all data sets if some bin expects no event, and otherwise its average is smaller than at `q0` by at least
the distance of the predictions, so equal only where the predictions agree in every bin.  If the counts are independent and Poisson distributed, the probability
that the data nevertheless prefer the other parameters is at most the exponential of minus half the distance. -/
theorem C133_truth (μ : Measure Ω) [IsProbabilityMeasure μ] (eq : Equi ℝ) (cfg : Config ℝ)
    (load : Ω → List String → Res (List (List (Option ℝ)))) (b : Ω → Built ℝ) (bins : Bins ℝ) (h : ∀ ω, init eq cfg (load ω) = .ok (b ω))
    (hbins : ∀ ω, (b ω).bins = bins) (S : Setup K) (parts : List Part) (hS : S.Proper bins parts) (g g' : FnCache) (st : State K XF)
    (hb : S.build parts (⟨[], []⟩, g) = ((st, g'), .ok ())) :
    ∃ order : String → List Plugin,
      (∀ a, Part.sim a ∈ parts → Topological a.registry (S.binsOn ++ ["eff"]) (order a.comp)) ∧
      ∀ key0 batch0 q0 key batch q, (∀ p ∈ parts, p.name ++ "_rate" ∈ (replaceAlias S.al q0).keys) →
        (∀ p ∈ parts, p.name ++ "_rate" ∈ (replaceAlias S.al q).keys) →
        ∃ ss0 key0' ss key', Draws S order batch0 (replaceAlias S.al q0) parts key0 ss0 key0' ∧
          Draws S order batch (replaceAlias S.al q) parts key ss key' ∧
          ((∀ s ∈ ss0, s.Normalisable) → (∀ s ∈ ss, s.Normalisable) → (∀ c ∈ binList bins, 0 < expectedIn ss0 c) →
            ∃ v0 : Ω → ℝ, (∀ ω, getLogLikelihood S.al (b ω).dataHist st key0 batch0 (floats q0) = .ok (key0', .fin (v0 ω))) ∧
              ((∃ c ∈ binList bins, expectedIn ss c ≤ 0) →
                ∀ ω, getLogLikelihood S.al (b ω).dataHist st key batch (floats q) = .ok (key', .ninf)) ∧
              ((∀ c ∈ binList bins, 0 < expectedIn ss c) →
                ∃ v : Ω → ℝ, (∀ ω, getLogLikelihood S.al (b ω).dataHist st key batch (floats q) = .ok (key', .fin (v ω))) ∧
                  ((∀ c ∈ binList bins, Integrable (fun ω => (countIn bins (b ω).data c : ℝ)) μ) →
                    (∀ c ∈ binList bins, ∫ ω, (countIn bins (b ω).data c : ℝ) ∂μ = expectedIn ss0 c) →
                    Integrable v0 μ ∧ Integrable v μ ∧
                    ∫ ω, v ω ∂μ + distance bins (expectedIn ss0) (expectedIn ss) ≤ ∫ ω, v0 ω ∂μ ∧
                    (∫ ω, v ω ∂μ = ∫ ω, v0 ω ∂μ ↔ ∀ c ∈ binList bins, expectedIn ss c = expectedIn ss0 c)) ∧
                  ((∀ c ∈ binList bins, Measurable (fun ω => countIn bins (b ω).data c)) →
                    iIndepFun (fun (c : {c // c ∈ (binList bins).toFinset}) ω => countIn bins (b ω).data c) μ →
                    (∀ c ∈ binList bins, μ.map (fun ω => countIn bins (b ω).data c) = poissonMeasure (expectedIn ss0 c).toNNReal) →
                    μ.real {ω | v0 ω ≤ v ω} ≤ Real.exp (-distance bins (expectedIn ss0) (expectedIn ss) / 2)))) := by
  obtain ⟨order, h1, h2⟩ := log_likelihood_of_bins bins S parts hS g g' st hb
  refine ⟨order, h1, fun key0 batch0 q0 key batch q hr0 hr => ?_⟩
  obtain ⟨ss0, key0', d0, hv0⟩ := h2 key0 batch0 q0 hr0
  obtain ⟨ss, key', d, hv⟩ := h2 key batch q hr
  refine ⟨ss0, key0', ss, key', d0, d, fun hn0 hn hp0 => ⟨fun ω => binnedLogL bins (b ω).data ss0, fun ω => ?_, ?_⟩⟩
  · have := (hv0 hn0 eq cfg (load ω) (b ω) (h ω) (hbins ω)).1 (by rw [hbins]; exact hp0)
    rw [this, hbins]
  refine ⟨fun hp ω => (hv hn eq cfg (load ω) (b ω) (h ω) (hbins ω)).2 (by rw [hbins]; exact hp), fun hp => ?_⟩
  · refine ⟨fun ω => binnedLogL bins (b ω).data ss, fun ω => ?_, ?_, ?_⟩
    · have := (hv hn eq cfg (load ω) (b ω) (h ω) (hbins ω)).1 (by rw [hbins]; exact hp)
      rw [this, hbins]
    · intro hi hl
      obtain ⟨a1, a2⟩ := logL_over_data μ (binList bins) (fun c ω => countIn bins (b ω).data c) (expectedIn ss0) (expectedIn ss) hi hl
      obtain ⟨b1, b2⟩ := logL_over_data μ (binList bins) (fun c ω => countIn bins (b ω).data c) (expectedIn ss0) (expectedIn ss0) hi hl
      have hg : ∫ ω, binnedLogL bins (b ω).data ss ∂μ + distance bins (expectedIn ss0) (expectedIn ss) ≤ ∫ ω, binnedLogL bins (b ω).data ss0 ∂μ := by
        unfold binnedLogL distance
        rw [a2, b2]
        exact gap_sum _ _ _ hp0 hp
      refine ⟨b1, a1, hg, fun he => ?_, fun he => ?_⟩
      · have h0 := distance_nonneg bins (expectedIn ss0) (expectedIn ss)
        exact (distance_zero bins _ _ (fun c hc => (hp0 c hc).le) (fun c hc => (hp c hc).le)).1 (by linarith)
      · unfold binnedLogL
        rw [a2, b2]
        congr 1
        exact List.map_congr_left fun c hc => by rw [he c hc]
    · intro hmeas hind hlaw
      have hnd : (binList bins).Nodup := (C79_bins bins hS.ascending).1
      have hsum : ∀ f : Nat × Nat → ℝ, ((binList bins).map f).sum = ∑ c : {c // c ∈ (binList bins).toFinset}, f c := by
        intro f
        rw [← List.sum_toFinset f hnd, ← Finset.sum_coe_sort]
      have := Truth.wrong_preferred μ (fun (c : {c // c ∈ (binList bins).toFinset}) ω => countIn bins (b ω).data c)
        (fun c => hmeas c (List.mem_toFinset.1 c.2)) (fun c => expectedIn ss0 c) (fun c => expectedIn ss c)
        (fun c => hp0 c (List.mem_toFinset.1 c.2)) (fun c => hp c (List.mem_toFinset.1 c.2)) hind (fun c => hlaw c (List.mem_toFinset.1 c.2))
      unfold binnedLogL distance
      simp only [hsum]
      exact this

end

/-! ### A concrete case: Poisson counts in two bins -/

/-- The two bins, and what is expected in them for the key `true`. -/
abbrev TwoBins : Type := {c // c ∈ (binList (.irreg1 ([0, 1, 2] : List ℝ))).toFinset}

theorem in0 : ((0, 0) : Nat × Nat) ∈ (binList (.irreg1 ([0, 1, 2] : List ℝ))).toFinset := by rw [exBins]; simp
theorem in1 : ((0, 1) : Nat × Nat) ∈ (binList (.irreg1 ([0, 1, 2] : List ℝ))).toFinset := by rw [exBins]; simp

/-- Independent Poisson counts with the means expected for the key `true`. -/
noncomputable def countsLaw : Measure (TwoBins → ℕ) :=
  Measure.pi (fun c => poissonMeasure (expectedIn [noisySample 10 true] c).toNNReal)

/-- As many events in the middle of each bin as counted, and one outside. -/
noncomputable def countsEvents (ω : TwoBins → ℕ) : List (List (Option ℝ)) :=
  List.replicate (ω ⟨(0, 0), in0⟩) [some (1 / 2)] ++ List.replicate (ω ⟨(0, 1), in1⟩) [some (3 / 2)]

theorem countsInit (eq : Equi ℝ) (ω : TwoBins → ℕ) :
    ∃ b, init eq { binsType := "irreg", binsOn := .str "cs1", bins := .list [.edges [0, 1, 2]], clip := some (0, 2) }
      (fun _ => .ok (countsEvents ω ++ [[some 7]])) = .ok b ∧ b.bins = .irreg1 [0, 1, 2] ∧ b.data = countsEvents ω := by
  refine ⟨_, rfl, rfl, ?_⟩
  simp only [countsEvents, List.filter_append, List.filter_replicate, List.filter, inside, entry]
  norm_num

theorem countsIn (ω : TwoBins → ℕ) (c : Nat × Nat) (hc : c ∈ (binList (.irreg1 ([0, 1, 2] : List ℝ))).toFinset) :
    countIn (.irreg1 [0, 1, 2]) (countsEvents ω) c = ω ⟨c, hc⟩ := by
  have h := hc
  rw [exBins] at h
  simp only [List.mem_toFinset, List.mem_cons, List.not_mem_nil, or_false] at h
  rcases h with rfl | rfl
  · simp [countIn, countsEvents, exIn, List.countP_append, List.countP_replicate]
    norm_num
  · simp [countIn, countsEvents, exIn, List.countP_append, List.countP_replicate]
    norm_num

/-- Non-vacuity of C133: events drawn with the prediction for one key are rarely better described by the prediction for the other. -/
example (eq : Equi ℝ) : ∃ (b : (TwoBins → ℕ) → Built ℝ) (st : State Bool XF) (v0 v : (TwoBins → ℕ) → ℝ),
    (∀ ω, (b ω).data = countsEvents ω) ∧
    (∀ ω, getLogLikelihood noisySetup.al (b ω).dataHist st true 10 (floats [("er_rate", 3)]) = .ok (true, .fin (v0 ω))) ∧
    (∀ ω, getLogLikelihood noisySetup.al (b ω).dataHist st false 10 (floats [("er_rate", 3)]) = .ok (false, .fin (v ω))) ∧
    countsLaw.real {ω | v0 ω ≤ v ω}
      ≤ Real.exp (-distance (.irreg1 [0, 1, 2]) (expectedIn [noisySample 10 true]) (expectedIn [noisySample 10 false]) / 2) := by
  obtain ⟨st, g', hb⟩ := noisyBuild
  choose b h1 h2 h3 using countsInit eq
  have : IsProbabilityMeasure countsLaw := by unfold countsLaw; infer_instance
  obtain ⟨order, e1, e2⟩ := C133_truth countsLaw eq _ _ b _ h1 h2 noisySetup [.sim exArgs] noisyProper _ _ st hb
  have hr : ∀ p ∈ [Part.sim exArgs], p.name ++ "_rate" ∈ (replaceAlias noisySetup.al [("er_rate", (3 : ℝ))]).keys := by
    intro p hp
    simp only [List.mem_singleton] at hp
    subst hp
    decide
  obtain ⟨ss0, k0, ss, k, d0, d, e3⟩ := e2 true 10 [("er_rate", 3)] false 10 [("er_rate", 3)] hr hr
  obtain ⟨rfl, rfl⟩ := noisyDraws (e1 exArgs (by simp)) d0
  obtain ⟨rfl, rfl⟩ := noisyDraws (e1 exArgs (by simp)) d
  obtain ⟨v0, f0, e4⟩ := e3 (by simpa using (noisyExpected _ _).1) (by simpa using (noisyExpected _ _).1) (by simpa using noisyPos 10 true)
  obtain ⟨v, f, -, e5⟩ := e4.2 (by simpa using noisyPos 10 false)
  · refine ⟨b, st, v0, v, h3, f0, f, ?_⟩
    have hc : ∀ c (hc : c ∈ (binList (.irreg1 ([0, 1, 2] : List ℝ))).toFinset), (fun ω => countIn (.irreg1 [0, 1, 2]) (b ω).data c) = fun ω => ω ⟨c, hc⟩ := by
      intro c hc
      funext ω
      rw [h3, countsIn]
    have hlaw := e5 (fun c hm => by rw [hc c (List.mem_toFinset.2 hm)]; exact measurable_pi_apply _) (by
        have : (fun (c : TwoBins) ω => countIn (.irreg1 [0, 1, 2]) (b ω).data c) = fun c ω => ω c := by
          funext c
          exact hc c.1 c.2
        rw [this]
        exact iIndepFun_pi (X := fun _ x => x) (fun _ => aemeasurable_id))
      (fun c hm => by
        rw [hc c (List.mem_toFinset.2 hm)]
        exact (measurePreserving_eval _ (⟨c, List.mem_toFinset.2 hm⟩ : TwoBins)).map_eq)
    simpa using hlaw

end Verif.Llh
