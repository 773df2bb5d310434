/-
C112: the noise of the simulation never raises the log likelihood on average.
-/
import Verif.Lemmas.Noise
import Verif.Props.Whole

namespace Verif.Llh
open Verif Comp

section
variable {K : Type}

/-- **C112 (repeated evaluation).** In the situation of C79, with every bin of every repetition expecting events: the log
posterior is at most the log prior plus the log likelihood of all data at the predictions averaged over the repetitions.  It is
equal to that exactly when all repetitions expect the same in every bin that holds data. -/
theorem C112_repeats (c : Ctx.Ctx K) (fs : List (Fitted K)) (hfs : List.Forall₂ (fun e f => Fitted.Made f e) c.likelihoods fs)
    (hnames : (fs.map Fitted.name).Nodup) :
    ∃ order : String → String → List Plugin,
      (∀ f ∈ fs, ∀ a, Part.sim a ∈ f.parts → Topological a.registry (f.setup.binsOn ++ ["eff"]) (order f.name a.comp)) ∧
      ∀ sig ord keys params batch repeats pm lp q,
        Parameter.setParameter c.pm params .none = (pm, .ok ()) → pm.vals = floats q →
        Parameter.logPriorOver sig pm ord = .ok (.fin lp) →
        (∀ f ∈ fs, ∀ p ∈ f.parts, p.name ++ "_rate" ∈ (replaceAlias f.setup.al q).keys) →
        ∃ sss : Nat → List (List (Sample ℝ)),
          (∀ i, ∃ key', DrawsAll order batch q fs (keys i) (sss i) key') ∧
          ((∀ i < Ctx.evaluations repeats, ∀ ss ∈ sss i, ∀ s ∈ ss, s.Normalisable) →
            (∀ i < Ctx.evaluations repeats, List.Forall₂ (fun f ss => ∀ b ∈ binList f.bins, 0 < expectedIn ss b) fs (sss i)) →
            ∃ v, (Ctx.logPosterior sig ord keys c params batch repeats).2 = .ok (.fin v, .fin lp) ∧
              v ≤ logLAtMean (Ctx.evaluations repeats) fs sss + lp ∧
              (v = logLAtMean (Ctx.evaluations repeats) fs sss + lp ↔ NoNoise (Ctx.evaluations repeats) fs sss)) := by
  obtain ⟨order, h1, h2⟩ := C79_posterior c fs hfs hnames
  refine ⟨order, h1, ?_⟩
  intro sig ord keys params batch repeats pm lp q hset hq hlp hr
  obtain ⟨sss, h3, h4⟩ := h2 sig ord keys params batch repeats pm lp q hset hq hlp hr
  refine ⟨sss, h3, fun hn hp => ⟨_, (h4 hn).1 hp, ?_⟩⟩
  have hpos : 0 < Ctx.evaluations repeats := Nat.lt_of_lt_of_le Nat.one_pos (le_max_left _ _)
  obtain ⟨a, b⟩ := repeats_le fs sss _ hpos hp
  exact ⟨add_le_add_left a _, (add_left_inj lp).trans b⟩

open MeasureTheory in
/-- **C112 (over the keys).** A likelihood made from a data file, evaluated at fixed parameters with a key drawn from any
distribution.  If every bin expects events for every key, the expectation of the log likelihood is at most the log likelihood at
the expectation of the prediction, and equal to it exactly when the prediction is almost surely constant in every bin that
holds data. -/
theorem C112_expectation [MeasurableSpace K] (eq : Equi ℝ) (cfg : Config ℝ)
    (load : List String → Res (List (List (Option ℝ)))) (b : Built ℝ)
    (h : init eq cfg load = .ok b) (S : Setup K) (parts : List Part) (hS : S.Proper b.bins parts) (g g' : FnCache)
    (st : State K XF) (hb : S.build parts (⟨[], []⟩, g) = ((st, g'), .ok ())) :
    ∃ order : String → List Plugin,
      (∀ a, Part.sim a ∈ parts → Topological a.registry (S.binsOn ++ ["eff"]) (order a.comp)) ∧
      ∀ batch q, (∀ p ∈ parts, p.name ++ "_rate" ∈ (replaceAlias S.al q).keys) →
        ∃ (ss : K → List (Sample ℝ)) (key' : K → K),
          (∀ key, Draws S order batch (replaceAlias S.al q) parts key (ss key) (key' key)) ∧
          ((∀ key, ∀ s ∈ ss key, s.Normalisable) → (∀ key, ∀ c ∈ binList b.bins, 0 < expectedIn (ss key) c) →
            ∃ v : K → ℝ, (∀ key, getLogLikelihood S.al b.dataHist st key batch (floats q) = .ok (key' key, .fin (v key))) ∧
              ∀ (μ : Measure K) [IsProbabilityMeasure μ],
                (∀ c ∈ binList b.bins, Integrable (fun key => expectedIn (ss key) c) μ) →
                (∀ c ∈ binList b.bins, 0 < countIn b.bins b.data c → Integrable (fun key => Real.log (expectedIn (ss key) c)) μ) →
                Integrable v μ ∧
                ∫ key, v key ∂μ ≤ predictedLogL b.bins b.data (fun c => ∫ key, expectedIn (ss key) c ∂μ) ∧
                (∫ key, v key ∂μ = predictedLogL b.bins b.data (fun c => ∫ key, expectedIn (ss key) c ∂μ) ↔
                  ∀ c ∈ binList b.bins, 0 < countIn b.bins b.data c →
                    ∀ᵐ key ∂μ, expectedIn (ss key) c = ∫ key, expectedIn (ss key) c ∂μ)) := by
  obtain ⟨order, h1, h2⟩ := C79_log_likelihood eq cfg load b h S parts hS g g' st hb
  refine ⟨order, h1, ?_⟩
  intro batch q hr
  choose ss key' h3 h4 using fun key => h2 key batch q hr
  refine ⟨ss, key', h3, fun hn hp => ⟨fun key => binnedLogL b.bins b.data (ss key), fun key => (h4 key (hn key)).1 (hp key), ?_⟩⟩
  intro μ _ hi hl
  exact logL_integral μ b.bins b.data (fun key => expectedIn (ss key)) hp hi hl

end

/-! ### A concrete case: one simulated component whose events depend on the key -/

/-- The column of every output: two events, the second of which has more weight for one of the keys. -/
noncomputable def noisyCol (k : Bool) : List ℝ := [1 / 2, if k then 2 else 3 / 2]

noncomputable def noisySetup : Setup Bool where
  llh := "l"
  binsOn := ["cs1"]
  al := []
  cfg := fun _ => { bins := .irreg1 [0, 1, 2], normType := "on_pdf", addEps := false, nSelected := 0 }
  ns := [("Energy", exEnergy), ("Signal", exSignal)]
  sem := fun _ p k _ => .ok (k, p.provides.map (fun _ => .col (noisyCol k)))
  odd := fun _ _ _ => .error .typeError
  oddFixed := fun _ => .error .typeError

theorem noisyProper : noisySetup.Proper (.irreg1 [0, 1, 2]) [.sim exArgs] where
  aliases := ⟨by simp [noisySetup, PyDict.keys], by simp [noisySetup, PyDict.keys], by simp [noisySetup]⟩
  bins_eq := fun _ _ => rfl
  ascending := by simp [Ascending]
  dims := rfl
  no_eff := by simp [noisySetup]
  no_batch := by simp [noisySetup]
  provides := by
    intro a ha d p hd hp
    have : a = exArgs := by simpa using ha
    subst this
    rcases exReg hd hp with ⟨rfl, rfl⟩ | ⟨h | h, rfl⟩
    · exact ⟨by decide, by decide, by decide, by decide, rfl⟩
    · subst h; exact ⟨by decide, by decide, by decide, by decide, rfl⟩
    · subst h; exact ⟨by decide, by decide, by decide, by decide, rfl⟩
  sole := by
    intro a ha d p d' hd hp hp' hd'
    have : a = exArgs := by simpa using ha
    subst this
    rcases exReg hd hp with ⟨rfl, rfl⟩ | ⟨h, rfl⟩
    · simp only [exEnergy, List.mem_singleton] at hp'
      subst hp'; rfl
    · simp only [exSignal, List.mem_cons, List.not_mem_nil, or_false] at hp'
      rcases hp' with rfl | rfl <;> rfl
  returns := fun _ _ _ p _ _ _ k _ _ => ⟨k, _, rfl, by simp, by simp⟩
  tables := by simp

theorem noisyBuild : ∃ st g', noisySetup.build [.sim exArgs] (⟨[], []⟩, {}) = ((st, g'), .ok ()) := ⟨_, _, rfl⟩

theorem noisyVal {q : PyDict String ℝ} {needed : String → Prop} {val : String → PVal} {ord : List Plugin} {k k' : Bool}
    (h : Evaluates (noisySetup.sem q) needed val ord k k') :
    k' = k ∧ ∀ p ∈ ord, ∀ d ∈ p.provides, needed d → val d = .col (noisyCol k) := by
  induction h with
  | nil => simp
  | cons h1 h2 _ ih =>
    simp only [noisySetup, Except.ok.injEq, Prod.mk.injEq] at h1
    obtain ⟨rfl, h1⟩ := h1
    refine ⟨ih.1, ?_⟩
    intro p hp d hd hn
    rcases List.mem_cons.1 hp with rfl | hp
    · obtain ⟨i, hi⟩ := List.mem_iff_getElem?.1 hd
      have := h2 i d hi hn
      rw [← h1, List.getElem?_map, hi] at this
      exact (Option.some.inj this).symm
    · exact ih.2 p hp d hd hn

/-- The sample for a key. -/
noncomputable def noisySample (batch : ℝ) (k : Bool) : Sample ℝ :=
  ⟨noisySetup.cfg "er", [noisyCol k], noisyCol k, 3, batch⟩

theorem noisyDraws {order : String → List Plugin} (ht : Topological exArgs.registry (["cs1"] ++ ["eff"]) (order "er"))
    {batch : Int} {k k' : Bool} {ss : List (Sample ℝ)}
    (h : Draws noisySetup order batch [("er_rate", 3)] [.sim exArgs] k ss k') : ss = [noisySample batch k] ∧ k' = k := by
  cases h with
  | @sim _ _ _ _ _ _ val cols eff rate h1 h2 h3 h4 h5 h6 =>
    have hr : ∀ d ∈ ["cs1", "eff"], Reach exArgs.registry "batch_size" (["cs1"] ++ ["eff"]) d := by
      intro d hd
      refine .root hd ?_
      rintro rfl
      exact absurd hd (by decide)
    have hs : exSignal ∈ order "er" := (ht.all _).2 ⟨"eff", hr _ (by simp), rfl⟩
    have e1 : val "cs1" = _ := (noisyVal h2).2 exSignal hs "cs1" (by decide) (hr _ (by simp))
    have e2 : val "eff" = _ := (noisyVal h2).2 exSignal hs "eff" (by decide) (hr _ (by simp))
    rw [e2] at h4
    cases h4
    have hcols : cols = [noisyCol k] := by
      simp only [noisySetup, List.map_cons, List.map_nil, e1] at h3
      match cols, h3 with
      | [c], h3 => simp only [List.map_cons, List.map_nil, List.cons.injEq, PVal.col.injEq, and_true] at h3; rw [← h3]
    have hrate : rate = 3 := (Option.some.inj h5).symm
    cases h6
    subst hcols hrate
    exact ⟨rfl, (noisyVal h2).1⟩

theorem noisyExpected (batch : ℝ) (k : Bool) :
    (noisySample batch k).Normalisable ∧ (noisySample batch k).expected (0, 0) = (if k then 3 / 5 else 3 / 4) ∧
      (noisySample batch k).expected (0, 1) = if k then 12 / 5 else 9 / 4 := by
  have c0 : (noisySample batch k).content (0, 0) = 1 / 2 := by
    simp only [noisySample, Sample.content, noisySetup, noisyCol, eventRows, Hist.weightOf]
    cases k <;> simp [List.filter_cons, exIn] <;> norm_num
  have c1 : (noisySample batch k).content (0, 1) = if k then 2 else 3 / 2 := by
    simp only [noisySample, Sample.content, noisySetup, noisyCol, eventRows, Hist.weightOf]
    cases k <;> simp [List.filter_cons, exIn] <;> norm_num
  have hn : (noisySample batch k).norm = if k then 5 / 2 else 2 := by
    have : (noisySample batch k).norm =
      ((binList (noisySample batch k).cfg.bins).map (noisySample batch k).content).sum := rfl
    rw [this]
    change (List.map (noisySample batch k).content [(0, 0), (0, 1)]).sum = _
    simp only [List.map_cons, List.map_nil, List.sum_cons, List.sum_nil, c0, c1]
    cases k <;> norm_num
  refine ⟨⟨.inl rfl, by rw [hn]; cases k <;> norm_num⟩, ?_, ?_⟩
  · unfold Sample.expected; rw [hn, c0]; cases k <;> norm_num [noisySample]
  · unfold Sample.expected; rw [hn, c1]; cases k <;> norm_num [noisySample]

theorem noisyInit (eq : Equi ℝ) : ∃ b, init eq { binsType := "irreg", binsOn := .str "cs1", bins := .list [.edges [0, 1, 2]], clip := some (0, 2) }
      (fun _ => .ok [[some (1 / 2)], [some (3 / 2)], [some 7]]) = .ok b ∧ b.bins = .irreg1 [0, 1, 2] ∧
      b.data = [[some (1 / 2)], [some (3 / 2)]] := by
  refine ⟨_, rfl, rfl, ?_⟩
  simp only [List.filter, inside, entry]
  norm_num

theorem noisyCount : countIn (.irreg1 [0, 1, 2]) [[some (1 / 2)], [some (3 / 2)]] (0, 0) = 1 := by
  simp [countIn, exIn, List.countP_cons]; norm_num

theorem noisyPos (batch : ℝ) (k : Bool) : ∀ c ∈ binList (.irreg1 ([0, 1, 2] : List ℝ)), 0 < expectedIn [noisySample batch k] c := by
  rw [exBins]
  obtain ⟨_, a0, a1⟩ := noisyExpected batch k
  intro c hc
  simp only [List.mem_cons, List.not_mem_nil, or_false] at hc
  rcases hc with rfl | rfl
  · simp only [expectedIn, List.map_cons, List.map_nil, a0]; cases k <;> norm_num
  · simp only [expectedIn, List.map_cons, List.map_nil, a1]; cases k <;> norm_num

/-- Non-vacuity of C112: with two repetitions whose simulations differ, the log posterior is strictly smaller. -/
example (eq : Equi ℝ) : ∃ (c : Ctx.Ctx Bool) (fs : List (Fitted Bool)) (sss : Nat → List (List (Sample ℝ))) (v : ℝ),
    (Ctx.logPosterior (fun _ => none) [] (fun i => i == 0) c (.dict [("er_rate", .fin 3)]) 10 2).2 = .ok (.fin v, .fin 0) ∧
    v < logLAtMean 2 fs sss + 0 := by
  obtain ⟨st, g', hb⟩ := noisyBuild
  obtain ⟨b, hinit, hbins, hdata⟩ := noisyInit eq
  let f : Fitted Bool := ⟨"l", noisySetup, [.sim exArgs], b.bins, b.data⟩
  let c : Ctx.Ctx Bool := ⟨[], ⟨[], [], [], [("er_rate", .fin 3)]⟩, [], [("l", .binned [] b.dataHist st)]⟩
  obtain ⟨order, h1, h2⟩ := C112_repeats c [f] (.cons ⟨eq, _, _, b, {}, st, g', hinit, rfl, rfl, by
    simpa only [f, hbins] using noisyProper, hb, rfl⟩ .nil) (by simp)
  have hset : Parameter.setParameter c.pm (.dict [("er_rate", .fin 3)]) .none = (c.pm, .ok ()) := by
    simp [Parameter.setParameter, Parameter.checkExist, c, PyDict.keys, PyDict.has, PyDict.get?, Parameter.setList,
      PyDict.update, PyDict.set]
  obtain ⟨sss, h3, h4⟩ := h2 (fun _ => none) [] (fun i => i == 0) (.dict [("er_rate", .fin 3)]) 10 2 c.pm 0 [("er_rate", 3)]
    hset rfl rfl (by
      intro f' hf' p hp
      simp only [List.mem_singleton] at hf'
      subst hf'
      simp only [f, List.mem_singleton] at hp
      subst hp
      simp [f, noisySetup, Part.name, exArgs, replaceAlias, PyDict.keys])
  have hs : ∀ i, sss i = [[noisySample 10 (i == 0)]] := by
    intro i
    obtain ⟨k', hd⟩ := h3 i
    generalize sss i = l at hd
    cases hd with
    | cons d1 d2 =>
      cases d2
      have := (noisyDraws (h1 f (by simp) exArgs (by simp [f])) d1).1
      rw [this]; simp
  obtain ⟨v, e1, e2, e3⟩ := h4 (by
      intro i _ ss hss s hs'
      rw [hs i] at hss
      simp only [List.mem_singleton] at hss
      subst hss
      simp only [List.mem_singleton] at hs'
      subst hs'
      exact (noisyExpected _ _).1)
    (by
      intro i _
      rw [hs i]
      refine .cons ?_ .nil
      simp only [f, hbins]
      exact noisyPos 10 (i == 0))
  refine ⟨c, [f], sss, v, e1, lt_of_le_of_ne e2 ?_⟩
  intro he
  have hnn := e3.1 he (f, 0) (by simp) (0, 0) (by simp only [f, hbins, exBins]; simp)
    (by simp only [f, hbins, hdata, noisyCount]; norm_num) 0 (by decide) 1 (by decide)
  simp only [expectedAt, hs, List.getD_cons_zero, expectedIn, List.map_cons, List.map_nil, noisyExpected] at hnn
  norm_num at hnn

open MeasureTheory in
/-- Non-vacuity over the keys: if both keys occur, the expectation of the log likelihood is strictly smaller than its value at
the expected prediction. -/
example (eq : Equi ℝ) (μ : Measure Bool) [IsProbabilityMeasure μ] (h0 : μ {true} ≠ 0) (h1 : μ {false} ≠ 0) :
    ∃ (b : Built ℝ) (st : State Bool XF) (v : Bool → ℝ),
      (∀ key, getLogLikelihood noisySetup.al b.dataHist st key 10 (floats [("er_rate", 3)]) = .ok (key, .fin (v key))) ∧
      ∫ key, v key ∂μ < predictedLogL b.bins b.data (fun c => ∫ key, expectedIn [noisySample 10 key] c ∂μ) := by
  obtain ⟨st, g', hb⟩ := noisyBuild
  obtain ⟨b, hinit, hbins, hdata⟩ := noisyInit eq
  obtain ⟨order, e1, e2⟩ := C112_expectation eq _ _ b hinit noisySetup [.sim exArgs] (by rw [hbins]; exact noisyProper) _ _ st hb
  obtain ⟨ss, key', e3, e4⟩ := e2 10 [("er_rate", 3)] (by
    intro p hp
    simp only [List.mem_singleton] at hp
    subst hp
    decide)
  have hs : ∀ k, ss k = [noisySample 10 k] := by
    intro k
    rw [(noisyDraws (e1 exArgs (by simp)) (e3 k)).1]
    simp
  have hk : ∀ k, key' k = k := by
    exact fun k => (noisyDraws (e1 exArgs (by simp)) (e3 k)).2
  obtain ⟨v, e5, e6⟩ := e4 (by
      intro k s hs'
      rw [hs k, List.mem_singleton] at hs'
      subst hs'
      exact (noisyExpected _ _).1)
    (by
      intro k
      rw [hs k, hbins]
      exact noisyPos 10 k)
  obtain ⟨_, e7, e8⟩ := e6 μ (fun _ _ => Integrable.of_finite) (fun _ _ _ => Integrable.of_finite)
  simp only [hs] at e7 e8
  refine ⟨b, st, v, fun key => by rw [e5 key, hk key], lt_of_le_of_ne e7 ?_⟩
  intro he
  have := e8.1 he (0, 0) (by rw [hbins, exBins]; simp) (by rw [hbins, hdata, noisyCount]; norm_num)
  rw [ae_iff_of_countable] at this
  have a := this true h0
  have b := this false h1
  rw [← b] at a
  simp only [expectedIn, List.map_cons, List.map_nil, noisyExpected] at a
  norm_num at a

end Verif.Llh
