/-
C80: what the simulated templates and log likelihoods are as random numbers, for every batch size and for large batches.
-/
import Verif.Lemmas.Limit
import Mathlib.Probability.ProductMeasure
import Mathlib.Probability.Independence.InfinitePi

namespace Verif.Llh
open Verif Comp MeasureTheory ProbabilityTheory Filter Topology

section
variable {Ω : Type} [MeasurableSpace Ω] {P : Measure Ω} [IsProbabilityMeasure P]

/-- On `on_sim` without the floor, a bin holds the rate times the mean weight of the events in it. -/
theorem hist_on_sim (cfg : HistCfg ℝ) (ha : Ascending cfg.bins) (hn : cfg.normType = "on_sim") (he : cfg.energy = .simulated)
    (heps : cfg.addEps = false) (rate : ℝ) (n : Nat) (h1 : 1 ≤ n) (X : Nat → Fin cfg.bins.dims → ℝ) (W : Nat → ℝ) (i j : Nat)
    (hb : IsBin cfg.bins i j) :
    ∃ h, simulateHist cfg false ((sampleOf cfg rate n X W).cols ++ [(sampleOf cfg rate n X W).eff]) rate n = .ok h ∧
      at? h i j = some ((∑ k ∈ Finset.range n, rate * weightIn cfg.bins (i, j) (X k, W k)) / n) := by
  have hn0 : (n : ℝ) ≠ 0 := by positivity
  have hnorm : (sampleOf cfg rate n X W).norm = n := by
    unfold Sample.norm
    rw [if_neg (show ¬ (sampleOf cfg rate n X W).cfg.normType = "on_pdf" by show ¬ cfg.normType = _; rw [hn]; decide),
      if_neg (show ¬ (sampleOf cfg rate n X W).cfg.energy = .bootstrap by show ¬ cfg.energy = _; rw [he]; decide)]
    rfl
  obtain ⟨h, e1, _, e3⟩ := simulateHist_spec (sampleOf cfg rate n X W) ha (by simp [sampleOf])
    ⟨.inr ⟨hn, .inl he⟩, by rw [hnorm]; exact hn0⟩
  refine ⟨h, e1, ?_⟩
  rw [e3 i j hb]
  unfold Sample.expected
  rw [hnorm, content_sampleOf cfg ha, if_neg (by rw [heps]; decide), Finset.mul_sum]
  rfl

/-- **C80 (no bias).** At every batch size, a template normalised on the simulation without the floor has in each bin the rate
times the probability of an event there and accepted as its expectation. -/
theorem C80_template_unbiased (cfg : HistCfg ℝ) (ha : Ascending cfg.bins) (hn : cfg.normType = "on_sim")
    (he : cfg.energy = .simulated) (heps : cfg.addEps = false) (rate : ℝ) (law : Measure ((Fin cfg.bins.dims → ℝ) × ℝ))
    (hl : EventLaw law) (n : Nat) (h1 : 1 ≤ n) (X : Nat → Ω → Fin cfg.bins.dims → ℝ) (W : Nat → Ω → ℝ)
    (h : IdealEvents P law n X W) (i j : Nat) (hb : IsBin cfg.bins i j) :
    ∃ v : Ω → ℝ,
      (∀ ω, ∃ hist, simulateHist cfg false ((sampleOf cfg rate n (fun k => X k ω) (fun k => W k ω)).cols ++
          [(sampleOf cfg rate n (fun k => X k ω) (fun k => W k ω)).eff]) rate n = .ok hist ∧ at? hist i j = some (v ω)) ∧
      Integrable v P ∧ ∫ ω, v ω ∂P = rate * acceptance cfg.bins law (i, j) := by
  have := hl.prob
  have hg : Measurable fun z => rate * weightIn cfg.bins (i, j) z := (measurable_weightIn cfg.bins (i, j)).const_mul rate
  have hi : Integrable (fun z => rate * weightIn cfg.bins (i, j) z) law :=
    ((weightIn_memLp cfg.bins law hl (i, j)).integrable (by norm_num)).const_mul rate
  refine ⟨_, fun ω => hist_on_sim cfg ha hn he heps rate n h1 _ _ i j hb, ?_, ?_⟩
  · refine Integrable.div_const (integrable_finsetSum _ fun k hk => ?_) _
    exact (ideal_ident h hg (Finset.mem_range.1 hk)).symm.integrable_snd hi
  · have hn0 : (n : ℝ) ≠ 0 := by positivity
    rw [integral_div, ideal_mean h hg hi, mul_comm, mul_div_cancel_right₀ _ hn0, integral_const_mul]
    rfl

/-- **C80 (accuracy).** Such a template deviates by `ε` or more with probability at most the mean squared weight there times the
squared rate, over the batch size times `ε` squared. -/
theorem C80_template_deviation (cfg : HistCfg ℝ) (ha : Ascending cfg.bins) (hn : cfg.normType = "on_sim")
    (he : cfg.energy = .simulated) (heps : cfg.addEps = false) (rate : ℝ) (law : Measure ((Fin cfg.bins.dims → ℝ) × ℝ))
    (hl : EventLaw law) (n : Nat) (h1 : 1 ≤ n) (X : Nat → Ω → Fin cfg.bins.dims → ℝ) (W : Nat → Ω → ℝ)
    (h : IdealEvents P law n X W) (i j : Nat) (hb : IsBin cfg.bins i j) (ε : ℝ) (hε : 0 < ε) :
    P {ω | ¬ ∃ hist v, simulateHist cfg false ((sampleOf cfg rate n (fun k => X k ω) (fun k => W k ω)).cols ++
          [(sampleOf cfg rate n (fun k => X k ω) (fun k => W k ω)).eff]) rate n = .ok hist ∧ at? hist i j = some v ∧
          |v - rate * acceptance cfg.bins law (i, j)| < ε}
      ≤ ENNReal.ofReal (rate ^ 2 * (∫ z, weightIn cfg.bins (i, j) z ^ 2 ∂law) / (n * ε ^ 2)) := by
  have := hl.prob
  have hg : Measurable fun z => rate * weightIn cfg.bins (i, j) z := (measurable_weightIn cfg.bins (i, j)).const_mul rate
  have h2 : MemLp (fun z => rate * weightIn cfg.bins (i, j) z) 2 law := (weightIn_memLp cfg.bins law hl (i, j)).const_mul rate
  have := ideal_deviation hl.prob h hg h2 h1 hε
  simp only [mul_pow, integral_const_mul] at this
  refine (measure_mono fun ω hω => ?_).trans this
  by_contra hc
  simp only [Set.mem_ofPred_eq, not_le] at hc
  obtain ⟨hist, e1, e2⟩ := hist_on_sim cfg ha hn he heps rate n h1 (fun k => X k ω) (fun k => W k ω) i j hb
  exact hω ⟨hist, _, e1, e2, hc⟩

/-- **C80 (large batches).** For every kind of bins, both normalisations and with or without the floor, the template of a
simulated component approaches in probability the rate times the acceptance of the bin (`on_sim`) or the rate shared out in
proportion to the acceptances (`on_pdf`).  The events of different batches need not be related. -/
theorem C80_template_converges (cfg : HistCfg ℝ) (rate : ℝ) (law : Measure ((Fin cfg.bins.dims → ℝ) × ℝ))
    (X : Nat → Nat → Ω → Fin cfg.bins.dims → ℝ) (W : Nat → Nat → Ω → ℝ) (h : IdealSource P cfg law X W) (i j : Nat)
    (hb : IsBin cfg.bins i j) (ε : ℝ) (hε : 0 < ε) :
    Tendsto (fun n : ℕ => P {ω | ¬ ∃ hist v,
        simulateHist cfg false ((sampleOf cfg rate n (fun k => X n k ω) (fun k => W n k ω)).cols ++
          [(sampleOf cfg rate n (fun k => X n k ω) (fun k => W n k ω)).eff]) rate n = .ok hist ∧ at? hist i j = some v ∧
        |v - trueExpected cfg rate law (i, j)| < ε}) atTop (𝓝 0) := by
  have h1 := expected_approaches cfg h.ascending rate law h.eventLaw h.ok X W h.events (i, j) ε hε
  have h2 := normalisable_likely cfg h.ascending rate law h.eventLaw h.ok X W h.events
  have h3 := h1.add h2
  rw [add_zero] at h3
  refine tendsto_of_tendsto_of_tendsto_of_le_of_le tendsto_const_nhds h3 (fun _ => bot_le) fun n =>
    (measure_mono fun ω hω => ?_).trans (measure_union_le _ _)
  by_contra hc
  simp only [Set.mem_union, Set.mem_ofPred_eq, not_or, not_le, not_not] at hc
  obtain ⟨hist, e1, _, e3⟩ := simulateHist_spec (sampleOf cfg rate n (fun k => X n k ω) (fun k => W n k ω)) h.ascending
    (by simp [sampleOf]) hc.2
  exact hω ⟨hist, _, e1, e3 i j hb, hc.1⟩

section
variable {K : Type}

/-- **C80 (log likelihood).** A likelihood made from a data file with components compiled from plugins or made from tables, as in
C79.  If the samples drawn by the plugins consist of independent events following some laws, and every bin expects events in
the limit, the log likelihood approaches in probability the Poisson log likelihood of the data for the expectations given by
the laws. -/
theorem C80_log_likelihood_converges (eq : Equi ℝ) (cfg : Config ℝ) (load : List String → Res (List (List (Option ℝ))))
    (b : Built ℝ) (h : init eq cfg load = .ok b) (S : Setup K) (parts : List Part) (hS : S.Proper b.bins parts) (g g' : FnCache)
    (st : State K XF) (hb : S.build parts (⟨[], []⟩, g) = ((st, g'), .ok ())) :
    ∃ order : String → List Plugin,
      (∀ a, Part.sim a ∈ parts → Topological a.registry (S.binsOn ++ ["eff"]) (order a.comp)) ∧
      ∀ q, (∀ p ∈ parts, p.name ++ "_rate" ∈ (replaceAlias S.al q).keys) →
        ∀ (keys : Nat → Ω → K) (srcs : List (Source Ω)), (∀ s ∈ srcs, s.Ideal P) →
          (∀ (n : Nat) ω ss key', Draws S order n (replaceAlias S.al q) parts (keys n ω) ss key' →
            ss = srcs.map (fun s => s.sample n ω)) →
          (∀ c ∈ binList b.bins, 0 < limitIn srcs c) →
          ∀ ε > 0, Tendsto (fun n : ℕ => P {ω | ¬ ∃ key' v,
            getLogLikelihood S.al b.dataHist st (keys n ω) n (floats q) = .ok (key', .fin v) ∧
              |v - trueLogL b.bins b.data srcs| < ε}) atTop (𝓝 0) := by
  obtain ⟨order, ho, hd⟩ := log_likelihood_of_build eq cfg load b h S parts hS g g' st hb
  refine ⟨order, ho, ?_⟩
  intro q hq keys srcs hs hdraw hpos ε hε
  refine tendsto_of_tendsto_of_tendsto_of_le_of_le tendsto_const_nhds (sources_good b.bins b.data srcs hs hpos ε hε)
    (fun _ => bot_le) fun n => measure_mono fun ω hω hc => hω ?_
  obtain ⟨ss, key', e1, e2⟩ := hd (keys n ω) n q hq
  have e3 := hdraw n ω ss key' e1
  rw [e3] at e2
  have e4 := (e2 (by
    intro s hm
    obtain ⟨s', hs', rfl⟩ := List.mem_map.1 hm
    exact hc.1 s' hs')).1 hc.2.1
  exact ⟨key', _, e4, hc.2.2⟩

/-- **C80 (finite batches).** The log likelihood of one evaluation is not centred on its limit: for templates normalised on the
simulation without the floor its expectation is, at every batch size, at most the log likelihood in the limit, and strictly
less if the prediction in some bin with data varies at all.  (So averaging repeated evaluations keeps this shift.) -/
theorem C80_log_likelihood_low (eq : Equi ℝ) (cfg : Config ℝ) (load : List String → Res (List (List (Option ℝ))))
    (b : Built ℝ) (h : init eq cfg load = .ok b) (S : Setup K) (parts : List Part) (hS : S.Proper b.bins parts) (g g' : FnCache)
    (st : State K XF) (hb : S.build parts (⟨[], []⟩, g) = ((st, g'), .ok ())) :
    ∃ order : String → List Plugin,
      (∀ a, Part.sim a ∈ parts → Topological a.registry (S.binsOn ++ ["eff"]) (order a.comp)) ∧
      ∀ q, (∀ p ∈ parts, p.name ++ "_rate" ∈ (replaceAlias S.al q).keys) →
        ∀ (n : Nat) (keys : Ω → K) (srcs : List (Source Ω)), 1 ≤ n → (∀ s ∈ srcs, s.Ideal P) → (∀ s ∈ srcs, s.Plain) →
          (∀ ω ss key', Draws S order n (replaceAlias S.al q) parts (keys ω) ss key' → ss = srcs.map (fun s => s.sample n ω)) →
          (∀ c ∈ binList b.bins, ∀ ω, 0 < expectedIn (srcs.map (fun s => s.sample n ω)) c) →
          (∀ c ∈ binList b.bins, Integrable (fun ω => Real.log (expectedIn (srcs.map (fun s => s.sample n ω)) c)) P) →
          ∃ v : Ω → ℝ,
            (∀ ω, ∃ key', getLogLikelihood S.al b.dataHist st (keys ω) n (floats q) = .ok (key', .fin (v ω))) ∧
            ∫ ω, v ω ∂P ≤ trueLogL b.bins b.data srcs ∧
            ((∃ c ∈ binList b.bins, 0 < countIn b.bins b.data c ∧
                ¬ ∀ᵐ ω ∂P, expectedIn (srcs.map (fun s => s.sample n ω)) c = limitIn srcs c) →
              ∫ ω, v ω ∂P < trueLogL b.bins b.data srcs) := by
  obtain ⟨order, ho, hd⟩ := log_likelihood_of_build eq cfg load b h S parts hS g g' st hb
  refine ⟨order, ho, ?_⟩
  intro q hq n keys srcs hn hs hp hdraw hpos hlog
  refine ⟨fun ω => binnedLogL b.bins b.data (srcs.map (fun s => s.sample n ω)), fun ω => ?_,
    logL_low b.bins b.data srcs hs hp n hn (fun c hc => .of_forall (hpos c hc)) hlog⟩
  obtain ⟨ss, key', e1, e2⟩ := hd (keys ω) n q hq
  have e3 := hdraw ω ss key' e1
  rw [e3] at e2
  refine ⟨key', (e2 ?_).1 fun c hc => hpos c hc ω⟩
  intro s hm
  obtain ⟨s', hs', rfl⟩ := List.mem_map.1 hm
  exact s'.plain_normalisable (hs s' hs') (hp s' hs') n hn ω

end
end

/-! ### A concrete case: events at 1/2 or 3/2 with equal probability, drawn by one plugin, and a table of two events -/

def coSignal : Plugin := ⟨"Signal", ["cs1", "eff"], ["batch_size"], [], []⟩
def coArgs : SimArgs := { comp := "er", registry := [("cs1", coSignal), ("eff", coSignal)] }

/-- One toss. -/
noncomputable def coin : Measure ℝ := (2⁻¹ : ENNReal) • Measure.dirac (1 / 2) + (2⁻¹ : ENNReal) • Measure.dirac (3 / 2)

instance : IsProbabilityMeasure coin where
  measure_univ := by simp [coin, ENNReal.inv_two_add_inv_two]

/-- Independent tosses. -/
noncomputable def tosses : Measure (ℕ → ℝ) := Measure.infinitePi (fun _ => coin)

instance : IsProbabilityMeasure tosses := by unfold tosses; infer_instance

/-- The plugin returns the first tosses and unit weights. -/
noncomputable def coSem (p : Plugin) (k : ℕ → ℝ) (args : List PVal) : Res ((ℕ → ℝ) × List PVal) :=
  match args with
  | [.int n] => .ok (k, p.provides.map (fun d =>
      if d = "eff" then .col ((List.range n.toNat).map (fun _ => 1)) else .col ((List.range n.toNat).map k)))
  | _ => .ok (k, p.provides.map (fun _ => .col []))

noncomputable def coCfg : HistCfg ℝ :=
  { bins := .irreg1 [0, 1, 2], normType := "on_sim", energy := .simulated, addEps := false, nSelected := 0 }

noncomputable def coSetup : Setup (ℕ → ℝ) where
  llh := "l"
  binsOn := ["cs1"]
  al := []
  cfg := fun n => if n = "er" then coCfg else { coCfg with normType := "on_pdf" }
  ns := [("Signal", coSignal)]
  sem := fun _ => coSem
  odd := fun _ _ _ => .error .typeError
  oddFixed := fun _ => .error .typeError

noncomputable def coParts : List Part := [.sim coArgs, .fixed "ac" [[1 / 2, 3 / 2]] 2]

theorem coReg {d : String} {p : Plugin} (h : Reach coArgs.registry "batch_size" (["cs1"] ++ ["eff"]) d)
    (hp : coArgs.registry.get? d = some p) : (d = "cs1" ∨ d = "eff") ∧ p = coSignal := by
  have hd : d = "cs1" ∨ d = "eff" := by
    clear hp
    induction h with
    | root h _ => simpa using h
    | dep _ hp he hb ih =>
      exfalso
      rcases ih with rfl | rfl
      · have hp' : coSignal = _ := Option.some.inj hp
        subst hp'
        simp only [coSignal, List.mem_singleton] at he
        exact hb he
      · have hp' : coSignal = _ := Option.some.inj hp
        subst hp'
        simp only [coSignal, List.mem_singleton] at he
        exact hb he
  refine ⟨hd, ?_⟩
  rcases hd with rfl | rfl <;> exact (Option.some.inj hp).symm

theorem coReach : ∀ d ∈ ["cs1", "eff"], Reach coArgs.registry "batch_size" (["cs1"] ++ ["eff"]) d := by
  intro d hd
  refine .root hd ?_
  rintro rfl
  exact absurd hd (by decide)

theorem coProper : coSetup.Proper (.irreg1 [0, 1, 2]) coParts where
  aliases := ⟨by simp [coSetup, PyDict.keys], by simp [coSetup, PyDict.keys], by simp [coSetup]⟩
  bins_eq := by
    intro p _
    simp only [coSetup]
    split <;> rfl
  ascending := by simp [Ascending]
  dims := rfl
  no_eff := by simp [coSetup]
  no_batch := by simp [coSetup]
  provides := by
    intro a ha d p hd hp
    have : a = coArgs := by simpa [coParts] using ha
    subst this
    obtain ⟨h, rfl⟩ := coReg hd hp
    rcases h with rfl | rfl <;> exact ⟨by decide, by decide, by decide, by decide, rfl⟩
  sole := by
    intro a ha d p d' hd hp hp' hd'
    have : a = coArgs := by simpa [coParts] using ha
    subst this
    obtain ⟨h, rfl⟩ := coReg hd hp
    simp only [coSignal, List.mem_cons, List.not_mem_nil, or_false] at hp'
    rcases hp' with rfl | rfl <;> rfl
  returns := by
    intro a ha d p hd hp q k args _
    simp only [coSetup, coSem]
    split
    · refine ⟨_, _, rfl, by simp, ?_⟩
      intro o ho
      obtain ⟨d, _, rfl⟩ := List.mem_map.1 ho
      split <;> exact ⟨_, rfl⟩
    · exact ⟨_, _, rfl, by simp, by simp⟩
  tables := by
    intro n d m h
    simp only [coParts, List.mem_cons, List.not_mem_nil, or_false, reduceCtorEq, false_or, Part.fixed.injEq] at h
    rw [h.2.1]; rfl

/-- The table. -/
noncomputable def coTable : Sample ℝ := ⟨{ coCfg with normType := "on_pdf" }, [[1 / 2, 3 / 2]], List.replicate 2 1, 1, 2⟩

theorem coBuild : ∃ st g', coSetup.build coParts (⟨[], []⟩, {}) = ((st, g'), .ok ()) := by
  have h1 : (regStep coSetup.llh coSetup.binsOn coSetup.al coSetup.wrap (⟨[], []⟩, {}) (coSetup.reg (.sim coArgs))).2 = .ok () := by
    rfl
  have hk : "ac" ∉ (regStep coSetup.llh coSetup.binsOn coSetup.al coSetup.wrap (⟨[], []⟩, {})
      (coSetup.reg (.sim coArgs))).1.1.components.keys := by
    have : (regStep coSetup.llh coSetup.binsOn coSetup.al coSetup.wrap (⟨[], []⟩, {})
      (coSetup.reg (.sim coArgs))).1.1.components.keys = ["er"] := rfl
    rw [this]; decide
  unfold coParts Setup.build
  cases h : regStep coSetup.llh coSetup.binsOn coSetup.al coSetup.wrap (⟨[], []⟩, {}) (coSetup.reg (.sim coArgs)) with
  | mk sg r =>
    rw [h] at h1 hk
    cases h1
    obtain ⟨h0, e1, _⟩ := content_spec coTable (by simp [coTable, coCfg, Ascending]) rfl
    have e0 : coSetup.cfg "ac" = coTable.cfg := rfl
    simp only [coTable] at e1
    simp only [Setup.build, Setup.reg, regStep, fixedDeduce, e0, coTable, e1, Bind.bind, Except.bind, Pure.pure, Except.pure, Except.map]
    have hk' : sg.1.components.has "ac" = false := by
      rw [Bool.eq_false_iff]
      exact fun hh => hk ((PyDict.has_iff _ _).1 hh)
    simp only [register, hk']
    exact ⟨_, _, rfl⟩

/-- The law of one event. -/
noncomputable def coLaw : Measure ((Fin coCfg.bins.dims → ℝ) × ℝ) := coin.map (fun x => (fun _ => x, 1))

noncomputable def coSource : Source (ℕ → ℝ) := .events coCfg 3 coLaw (fun _ k ω _ => ω k) (fun _ _ _ => 1)

noncomputable def coSources : List (Source (ℕ → ℝ)) := [coSource, .table coTable]

theorem coMeas : Measurable (fun x : ℝ => ((fun _ => x, 1) : (Fin coCfg.bins.dims → ℝ) × ℝ)) := by fun_prop

theorem coEvents (n : Nat) : IdealEvents (d := coCfg.bins.dims) tosses coLaw n (fun k ω _ => ω k) (fun _ _ => 1) where
  meas k _ := coMeas.comp (measurable_pi_apply k)
  law k _ := by
    have h1 : MeasurePreserving (fun ω : ℕ → ℝ => ω k) tosses coin := measurePreserving_eval_infinitePi _ k
    rw [coLaw, ← h1.map_eq, Measure.map_map coMeas (measurable_pi_apply k)]
    rfl
  indep i _ j _ hij := by
    have h := iIndepFun_infinitePi (P := fun _ : ℕ => coin) (X := fun (_ : ℕ) (x : ℝ) =>
      ((fun _ => x, 1) : (Fin coCfg.bins.dims → ℝ) × ℝ)) (fun _ => coMeas)
    exact h.indepFun hij

theorem coLawVal (f : (Fin coCfg.bins.dims → ℝ) × ℝ → ℝ) (hf : Measurable f) :
    ∫ z, f z ∂coLaw = (f (fun _ => 1 / 2, 1) + f (fun _ => 3 / 2, 1)) / 2 := by
  have hi : ∀ x : ℝ, Integrable (fun x : ℝ => f (fun _ => x, 1)) ((2⁻¹ : ENNReal) • Measure.dirac x) := fun x =>
    (integrable_dirac (by simp)).smul_measure (by simp)
  rw [coLaw, integral_map coMeas.aemeasurable hf.aestronglyMeasurable, coin, integral_add_measure (hi _) (hi _),
    integral_smul_measure, integral_smul_measure, integral_dirac, integral_dirac]
  simp
  ring

theorem coEventLaw : EventLaw coLaw where
  prob := by unfold coLaw; exact Measure.isProbabilityMeasure_map coMeas.aemeasurable
  nonneg := by
    rw [coLaw, ae_map_iff coMeas.aemeasurable (measurableSet_le measurable_const measurable_snd)]
    simp
  square := by
    have : IsProbabilityMeasure coLaw := by unfold coLaw; exact Measure.isProbabilityMeasure_map coMeas.aemeasurable
    refine MemLp.of_bound measurable_snd.aestronglyMeasurable 1 ?_
    rw [coLaw, ae_map_iff coMeas.aemeasurable (measurableSet_le (by fun_prop) measurable_const)]
    simp

theorem coIn (v : ℝ) (j : Nat) (hj : j < 2) :
    EventIn (.irreg1 [0, 1, 2]) 0 j [some v] ↔ (j : ℝ) < v ∧ v ≤ j + 1 := by
  match j, hj with
  | 0, _ => simp [EventIn, InUpper]
  | 1, _ => simp [EventIn, InUpper]; norm_num

theorem coWeight (x : ℝ) (j : Nat) (hj : j < 2) :
    weightIn coCfg.bins (0, j) (fun _ => x, 1) = if (j : ℝ) < x ∧ x ≤ j + 1 then 1 else 0 := by
  unfold weightIn
  have : EventIn coCfg.bins (0, j).1 (0, j).2 (posRow (d := coCfg.bins.dims) (fun _ => x, (1 : ℝ)).1) ↔ _ := coIn x j hj
  by_cases h : (j : ℝ) < x ∧ x ≤ j + 1
  · rw [if_pos (this.2 h), if_pos h]
  · rw [if_neg fun h' => h (this.1 h'), if_neg h]

theorem coAcceptance (j : Nat) (hj : j < 2) : acceptance coCfg.bins coLaw (0, j) = 1 / 2 := by
  unfold acceptance
  rw [coLawVal _ (measurable_weightIn coCfg.bins (0, j)), coWeight _ j hj, coWeight _ j hj]
  match j, hj with
  | 0, _ => norm_num
  | 1, _ => norm_num

theorem coTableVal : coTable.Normalisable ∧ ∀ j < 2, coTable.expected (0, j) = 1 / 2 := by
  have c : ∀ j < 2, coTable.content (0, j) = 1 := by
    intro j hj
    simp only [coTable, coCfg, Sample.content, eventRows, Hist.weightOf]
    match j, hj with
    | 0, _ => simp [List.filter_cons, coIn, List.replicate]; norm_num
    | 1, _ => simp [List.filter_cons, coIn, List.replicate]; norm_num
  have hn : coTable.norm = 2 := by
    have : coTable.norm = ((binList coTable.cfg.bins).map coTable.content).sum := rfl
    rw [this]
    change (List.map coTable.content [(0, 0), (0, 1)]).sum = 2
    simp [c]
    norm_num
  refine ⟨⟨.inl rfl, by rw [hn]; norm_num⟩, fun j hj => ?_⟩
  unfold Sample.expected
  rw [hn, c j hj]
  simp only [coTable, coCfg]
  norm_num

theorem coIdeal : ∀ s ∈ coSources, s.Ideal tosses := by
  intro s hs
  simp only [coSources, List.mem_cons, List.not_mem_nil, or_false] at hs
  rcases hs with rfl | rfl
  · exact ⟨by simp [coCfg, Ascending], coEventLaw, .inr ⟨rfl, rfl⟩, coEvents⟩
  · exact coTableVal.1

theorem coPlain : ∀ s ∈ coSources, s.Plain := by
  intro s hs
  simp only [coSources, List.mem_cons, List.not_mem_nil, or_false] at hs
  rcases hs with rfl | rfl
  · exact ⟨rfl, rfl, rfl⟩
  · trivial

theorem coLimit (j : Nat) (hj : j < 2) : limitIn coSources (0, j) = 2 := by
  have h1 : coSource.limit (0, j) = 3 / 2 := by
    have : coSource.limit (0, j) = 3 * acceptance coCfg.bins coLaw (0, j) := by
      simp only [coSource, Source.limit, trueExpected]
      rw [if_neg (show ¬ coCfg.normType = "on_pdf" by simp [coCfg])]
    rw [this, coAcceptance j hj]
    norm_num
  have h2 : (Source.table (Ω := ℕ → ℝ) coTable).limit (0, j) = 1 / 2 := coTableVal.2 j hj
  unfold limitIn coSources
  simp only [List.map_cons, List.map_nil, List.sum_cons, List.sum_nil, h1, h2]
  norm_num

theorem coOrder {order : List Plugin} (h : Topological coArgs.registry (["cs1"] ++ ["eff"]) order) : order = [coSignal] := by
  have hall : ∀ p ∈ order, p = coSignal := by
    intro p hp
    obtain ⟨d, h1, h2⟩ := (h.all p).1 hp
    exact (coReg h1 h2).2
  have hmem : coSignal ∈ order := (h.all _).2 ⟨"eff", coReach _ (by simp), rfl⟩
  match order, h.once, hall, hmem with
  | [p], _, hall, _ => rw [hall p (by simp)]
  | p :: p' :: r, hnd, hall, _ =>
    have e1 := hall p (by simp)
    have e2 := hall p' (by simp)
    rw [e1, e2] at hnd
    simp at hnd

theorem coDraws {order : String → List Plugin} (ht : Topological coArgs.registry (["cs1"] ++ ["eff"]) (order "er"))
    {n : Nat} {k k' : ℕ → ℝ} {ss : List (Sample ℝ)}
    (h : Draws coSetup order n [("er_rate", 3), ("ac_rate", 1)] coParts k ss k') :
    ss = coSources.map (fun s => s.sample n k) := by
  unfold coParts at h
  cases h with
  | @sim _ _ _ _ _ _ val cols eff rate h1 h2 h3 h4 h5 h6 =>
    have ho : order coArgs.comp = [coSignal] := coOrder ht
    rw [ho] at h2
    cases h2 with
    | cons g1 g2 g3 =>
      have hargs : coSignal.dependsOn.map val = [.int n] := by simp [coSignal, h1]
      rw [hargs] at g1
      simp only [coSetup, coSem, coSignal, Int.toNat_natCast, List.map_cons, List.map_nil, Except.ok.injEq, Prod.mk.injEq] at g1
      obtain ⟨rfl, rfl⟩ := g1
      have e1 := g2 0 "cs1" rfl (coReach _ (by simp))
      have e2 := g2 1 "eff" rfl (coReach _ (by simp))
      simp only [List.getElem?_cons_zero, Option.some.injEq] at e1
      simp only [List.getElem?_cons_succ, List.getElem?_cons_zero, Option.some.injEq] at e2
      rw [if_neg (by decide)] at e1
      rw [if_pos trivial] at e2
      rw [← e2] at h4
      cases h4
      have hcols : cols = [(List.range n).map k] := by
        simp only [coSetup, List.map_cons, List.map_nil, ← e1] at h3
        match cols, h3 with
        | [c], h3 => simp only [List.map_cons, List.map_nil, List.cons.injEq, PVal.col.injEq, and_true] at h3; rw [← h3]
      have hrate : rate = 3 := (Option.some.inj h5).symm
      cases h6 with
      | fixed g1 g2 =>
        have hrate' : _ = _ := (Option.some.inj g1).symm
        cases g2
        subst hcols hrate hrate'
        simp only [coSources, List.map_cons, List.map_nil, Source.sample, coSource, sampleOf]
        rfl

/-- The data: one event in the first bin and two in the second. -/
theorem coInit (eq : Equi ℝ) : ∃ b,
    init eq { binsType := "irreg", binsOn := .str "cs1", bins := .list [.edges [0, 1, 2]], clip := some (0, 2) }
      (fun _ => .ok [[some (1 / 2)], [some (3 / 2)], [some (7 / 4)]]) = .ok b ∧ b.bins = .irreg1 [0, 1, 2] ∧
      countIn b.bins b.data (0, 0) = 1 ∧ countIn b.bins b.data (0, 1) = 2 := by
  have hd : ∃ b, init eq { binsType := "irreg", binsOn := .str "cs1", bins := .list [.edges [0, 1, 2]], clip := some (0, 2) }
      (fun _ => .ok [[some (1 / 2)], [some (3 / 2)], [some (7 / 4)]]) = .ok b ∧ b.bins = .irreg1 [0, 1, 2] ∧
      b.data = [[some (1 / 2)], [some (3 / 2)], [some (7 / 4)]] := by
    refine ⟨_, rfl, rfl, ?_⟩
    simp only [List.filter, inside, entry]
    norm_num
  obtain ⟨b, h1, h2, h3⟩ := hd
  refine ⟨b, h1, h2, ?_, ?_⟩
  · rw [h2, h3]; simp [countIn, coIn, List.countP_cons]; norm_num
  · rw [h2, h3]; simp [countIn, coIn, List.countP_cons]; norm_num

/-- Non-vacuity of C80: in this case the log likelihood approaches 3 log 2 - 4. -/
example (eq : Equi ℝ) : ∃ b st g',
    init eq { binsType := "irreg", binsOn := .str "cs1", bins := .list [.edges [0, 1, 2]], clip := some (0, 2) }
      (fun _ => .ok [[some (1 / 2)], [some (3 / 2)], [some (7 / 4)]]) = .ok b ∧ coSetup.Proper b.bins coParts ∧
    coSetup.build coParts (⟨[], []⟩, {}) = ((st, g'), .ok ()) ∧
    ∀ ε > 0, Tendsto (fun n : ℕ => tosses {ω | ¬ ∃ key' v, getLogLikelihood coSetup.al b.dataHist st ω n
        (floats [("er_rate", 3), ("ac_rate", 1)]) = .ok (key', .fin v) ∧ |v - (3 * Real.log 2 - 4)| < ε}) atTop (𝓝 0) := by
  obtain ⟨st, g', hb⟩ := coBuild
  obtain ⟨b, hinit, hbins, d0, d1⟩ := coInit eq
  have hP : coSetup.Proper b.bins coParts := by rw [hbins]; exact coProper
  refine ⟨b, st, g', hinit, hP, hb, ?_⟩
  obtain ⟨order, h1, h2⟩ := C80_log_likelihood_converges (P := tosses) eq _ _ b hinit coSetup coParts hP _ _ st hb
  have hl : trueLogL b.bins b.data coSources = 3 * Real.log 2 - 4 := by
    have hbl : binList b.bins = [(0, 0), (0, 1)] := by rw [hbins]; rfl
    unfold trueLogL
    rw [hbl]
    simp only [List.map_cons, List.map_nil, List.sum_cons, List.sum_nil, d0, d1, coLimit 0 (by norm_num), coLimit 1 (by norm_num)]
    push_cast
    ring
  rw [← hl]
  refine h2 [("er_rate", 3), ("ac_rate", 1)] ?_ (fun _ ω => ω) coSources coIdeal ?_ ?_
  · intro p hp
    have hq : replaceAlias coSetup.al [("er_rate", (3 : ℝ)), ("ac_rate", 1)] = [("er_rate", 3), ("ac_rate", 1)] := rfl
    rw [hq]
    simp only [coParts, List.mem_cons, List.not_mem_nil, or_false] at hp
    rcases hp with rfl | rfl <;> simp [Part.name, PyDict.keys, coArgs]
  · intro n ω ss key' hd
    exact coDraws (h1 coArgs (by simp [coParts])) hd
  · rw [hbins]
    intro c hc
    have : c = (0, 0) ∨ c = (0, 1) := by
      have hbl : binList (.irreg1 ([0, 1, 2] : List ℝ)) = [(0, 0), (0, 1)] := rfl
      rw [hbl] at hc
      simpa using hc
    rcases this with rfl | rfl
    · rw [coLimit 0 (by norm_num)]; norm_num
    · rw [coLimit 1 (by norm_num)]; norm_num

theorem coExpected (j : Nat) (hj : j < 2) (ω : ℕ → ℝ) :
    expectedIn (coSources.map (fun s => s.sample 1 ω)) (0, j) = if (j : ℝ) < ω 0 ∧ ω 0 ≤ j + 1 then 7 / 2 else 1 / 2 := by
  have h1 : (coSource.sample 1 ω).expected (0, j) = if (j : ℝ) < ω 0 ∧ ω 0 ≤ j + 1 then 3 else 0 := by
    simp only [coSource, Source.sample]
    unfold Sample.expected Sample.norm
    rw [content_sampleOf coCfg (by simp [coCfg, Ascending])]
    rw [if_neg (show ¬ (sampleOf coCfg 3 1 (fun k _ => ω k) (fun _ => 1)).cfg.normType = "on_pdf" by simp [sampleOf, coCfg]),
      if_neg (show ¬ (sampleOf coCfg 3 1 (fun k _ => ω k) (fun _ => 1)).cfg.energy = .bootstrap by simp [sampleOf, coCfg]),
      if_neg (show ¬ coCfg.addEps = true by simp [coCfg]), Finset.sum_range_one, coWeight _ j hj]
    simp only [sampleOf]
    split <;> norm_num
  have h2 : ((Source.table (Ω := ℕ → ℝ) coTable).sample 1 ω).expected (0, j) = 1 / 2 := coTableVal.2 j hj
  unfold expectedIn coSources
  simp only [List.map_cons, List.map_nil, List.sum_cons, List.sum_nil, h1, h2]
  split <;> norm_num

/-- Non-vacuity of the bound: with one event per batch the mean log likelihood is below 3 log 2 - 4. -/
example (eq : Equi ℝ) : ∃ b st g',
    init eq { binsType := "irreg", binsOn := .str "cs1", bins := .list [.edges [0, 1, 2]], clip := some (0, 2) }
      (fun _ => .ok [[some (1 / 2)], [some (3 / 2)], [some (7 / 4)]]) = .ok b ∧
    coSetup.build coParts (⟨[], []⟩, {}) = ((st, g'), .ok ()) ∧
    ∃ v : (ℕ → ℝ) → ℝ, (∀ ω, ∃ key', getLogLikelihood coSetup.al b.dataHist st ω 1
        (floats [("er_rate", 3), ("ac_rate", 1)]) = .ok (key', .fin (v ω))) ∧ ∫ ω, v ω ∂tosses < 3 * Real.log 2 - 4 := by
  obtain ⟨st, g', hb⟩ := coBuild
  obtain ⟨b, hinit, hbins, d0, d1⟩ := coInit eq
  have hP : coSetup.Proper b.bins coParts := by rw [hbins]; exact coProper
  refine ⟨b, st, g', hinit, hb, ?_⟩
  obtain ⟨order, h1, h2⟩ := C80_log_likelihood_low (P := tosses) eq _ _ b hinit coSetup coParts hP _ _ st hb
  have hbl : binList b.bins = [(0, 0), (0, 1)] := by rw [hbins]; rfl
  have hl : trueLogL b.bins b.data coSources = 3 * Real.log 2 - 4 := by
    unfold trueLogL
    rw [hbl]
    simp only [List.map_cons, List.map_nil, List.sum_cons, List.sum_nil, d0, d1, coLimit 0 (by norm_num), coLimit 1 (by norm_num)]
    push_cast
    ring
  have hc : ∀ c ∈ binList b.bins, ∃ j < 2, c = (0, j) := by
    rw [hbl]
    intro c hc
    simp only [List.mem_cons, List.not_mem_nil, or_false] at hc
    rcases hc with rfl | rfl
    · exact ⟨0, by norm_num, rfl⟩
    · exact ⟨1, by norm_num, rfl⟩
  obtain ⟨v, e1, _, e3⟩ := h2 [("er_rate", 3), ("ac_rate", 1)] (by
      intro p hp
      have hq : replaceAlias coSetup.al [("er_rate", (3 : ℝ)), ("ac_rate", 1)] = [("er_rate", 3), ("ac_rate", 1)] := rfl
      rw [hq]
      simp only [coParts, List.mem_cons, List.not_mem_nil, or_false] at hp
      rcases hp with rfl | rfl <;> simp [Part.name, PyDict.keys, coArgs]) 1 (fun ω => ω) coSources le_rfl coIdeal coPlain
    (fun ω ss key' hd => coDraws (h1 coArgs (by simp [coParts])) hd)
    (by
      intro c hc' ω
      obtain ⟨j, hj, rfl⟩ := hc c hc'
      rw [coExpected j hj]
      split <;> norm_num)
    (by
      intro c hc'
      obtain ⟨j, hj, rfl⟩ := hc c hc'
      simp only [coExpected j hj]
      refine Integrable.of_bound (Measurable.aestronglyMeasurable ?_) (max |Real.log (7 / 2)| |Real.log (1 / 2)|) (.of_forall ?_)
      · refine Real.measurable_log.comp (Measurable.ite ?_ measurable_const measurable_const)
        exact (measurableSet_lt measurable_const (measurable_pi_apply 0)).inter
          (measurableSet_le (measurable_pi_apply 0) measurable_const)
      · intro ω
        split
        · exact le_max_left _ _
        · exact le_max_right _ _)
  refine ⟨v, e1, ?_⟩
  rw [← hl]
  refine e3 ⟨(0, 0), by rw [hbl]; simp, by rw [d0]; norm_num, fun hae => ?_⟩
  have : ∀ᵐ ω ∂tosses, False := by
    filter_upwards [hae] with ω hω
    rw [coExpected 0 (by norm_num), coLimit 0 (by norm_num)] at hω
    split at hω <;> norm_num at hω
  simp only [eventually_false_iff_eq_bot, ae_eq_bot] at this
  exact IsProbabilityMeasure.ne_zero tosses this

end Verif.Llh
