/-
C134: dividing bins further.
-/
import Verif.Lemmas.Refine
import Verif.Props.Truth

namespace Verif.Llh
open Verif Comp MeasureTheory ProbabilityTheory

/-- **C134 (data).** Changing the bins of a likelihood leaves the selection of its data as it is, and where the new bins divide the old ones
further, an old bin contains as many data events as its pieces together. -/
theorem C134_data (eq : Equi ℝ) (cfg : Config ℝ) (bs : BinsVal ℝ) (load : List String → Res (List (List (Option ℝ)))) (b b' : Built ℝ)
    (h : init eq cfg load = .ok b) (h' : init eq { cfg with bins := bs } load = .ok b') :
    b'.data = b.data ∧
    (Finer b'.bins b.bins → Ascending b'.bins → Ascending b.bins → ∀ c ∈ binList b.bins,
      at? b.dataHist c.1 c.2 = some ((piecesOf b'.bins b.bins c).map (fun f => (at? b'.dataHist f.1 f.2).getD 0)).sum) := by
  obtain ⟨specs, rows, n1, _, l1, s1, _⟩ := init_spec eq cfg load b h
  obtain ⟨specs', rows', n2, _, l2, s2, _⟩ := init_spec eq _ load b' h'
  simp only at n2
  have hon : b'.binsOn = b.binsOn := by
    cases ho : cfg.binsOn <;> cases hb : cfg.bins <;> cases bs <;> simp only [ho, hb, normalise] at n1 n2 <;> simp_all
  rw [hon, l1] at l2
  cases l2
  rw [hon] at s2
  have hd : b'.data = b.data := by
    have : select b.binsOn.length { cfg with bins := bs } rows = select b.binsOn.length cfg rows := rfl
    rw [this, s1] at s2
    exact (Except.ok.inj s2).symm
  refine ⟨hd, fun hf ha hac c hc => ?_⟩
  have hc' := (mem_binList _ hac c.1 c.2).1 hc
  rw [C34_bin_contents eq cfg load b h hac c.1 c.2 hc']
  have e1 := count_pieces hf ha hc' b.data
  unfold countIn at e1
  rw [e1]
  congr 1
  push_cast
  rw [List.map_map]
  congr 1
  refine List.map_congr_left fun f hf' => ?_
  rw [C34_bin_contents eq _ load b' h' ha f.1 f.2 ((mem_pieces ha).1 hf').1, hd]
  rfl

section
variable {K Ω : Type}

/-- **C134 (predictions).** Two likelihoods with the same components and bins of which one divides the other further simulate the same events.
If every bin holds at least the floor, where there is one, the events predicted in a coarse bin are those predicted in its pieces together. -/
theorem C134_predictions (fine coarse : Bins ℝ) (hf : Finer fine coarse) (hac : Ascending coarse) (S : Setup K) (parts : List Part)
    (hS : S.Proper fine parts) (g1 g1' g2 g2' : FnCache) (st st' : State K XF) (hb : S.build parts (⟨[], []⟩, g1) = ((st, g1'), .ok ()))
    (hb' : (S.withBins coarse).build parts (⟨[], []⟩, g2) = ((st', g2'), .ok ())) :
    ∃ order : String → List Plugin,
      (∀ a, Part.sim a ∈ parts → Topological a.registry (S.binsOn ++ ["eff"]) (order a.comp)) ∧
      ∀ key batch q, (∀ p ∈ parts, p.name ++ "_rate" ∈ (replaceAlias S.al q).keys) →
        ∃ ss key', Draws S order batch (replaceAlias S.al q) parts key ss key' ∧
          ((∀ s ∈ ss, s.Normalisable) → (∀ s ∈ ss, s.Filled) →
            ∀ eq cfg load b eq' cfg' load' b', init eq cfg load = .ok b → b.bins = fine → init eq' cfg' load' = .ok b' → b'.bins = coarse →
            ∃ h h' : Grid ℝ,
              simulateModelHist S.al b.dataHist st key batch (floats q) = .ok (key', gridFloats h) ∧
              simulateModelHist S.al b'.dataHist st' key batch (floats q) = .ok (key', gridFloats h') ∧
              h.flatten = (binList fine).map (expectedIn ss) ∧
              h'.flatten = (binList coarse).map (fun c => ((piecesOf fine coarse c).map (expectedIn ss)).sum)) := by
  obtain ⟨order, o1, o2⟩ := both_binnings fine coarse hf hac S parts hS g1 g1' g2 g2' st st' hb hb'
  refine ⟨order, o1, fun key batch q hr => ?_⟩
  obtain ⟨ss, key', d, hbins, v, v'⟩ := o2 key batch q hr
  refine ⟨ss, key', d, fun hn hfill eq cfg load b eq' cfg' load' b' h hb0 h' hb0' => ?_⟩
  have hn' : ∀ s ∈ ss, (s.withBins coarse).Normalisable := fun s hs => by
    have e := hbins s hs
    exact normalisable_withBins s (by rw [e]; exact hf) (by rw [e]; exact hS.ascending) hac (hfill s hs) (hn s hs)
  obtain ⟨⟨t, t1, t2⟩, -⟩ := v hn eq cfg load b h hb0
  obtain ⟨⟨t', t1', t2'⟩, -⟩ := v' hn' eq' cfg' load' b' h' hb0'
  refine ⟨t, t', t1, t1', t2, ?_⟩
  rw [t2']
  exact List.map_congr_left fun c hc => expectedIn_withBins fine ss hbins hf hS.ascending hac hfill hc

/-- **C134 (power).** Finer bins never tell parameters apart less well.  Let the data be on average what the parameters `q0` predict in the
fine bins, and let the floors play no role.  Then the log likelihood of the coarse bins is on average larger at `q0` than at other parameters,
but by no more than that of the fine bins is. -/
theorem C134_power [MeasurableSpace Ω] (μ : Measure Ω) [IsProbabilityMeasure μ] (fine coarse : Bins ℝ) (hf : Finer fine coarse) (hac : Ascending coarse)
    (S : Setup K) (parts : List Part)
    (hS : S.Proper fine parts) (g1 g1' g2 g2' : FnCache) (st st' : State K XF) (hb : S.build parts (⟨[], []⟩, g1) = ((st, g1'), .ok ()))
    (hb' : (S.withBins coarse).build parts (⟨[], []⟩, g2) = ((st', g2'), .ok ())) (eq eq' : Equi ℝ) (cfg cfg' : Config ℝ)
    (load load' : Ω → List String → Res (List (List (Option ℝ)))) (b b' : Ω → Built ℝ) (h : ∀ ω, init eq cfg (load ω) = .ok (b ω))
    (h' : ∀ ω, init eq' cfg' (load' ω) = .ok (b' ω)) (hbins : ∀ ω, (b ω).bins = fine) (hbins' : ∀ ω, (b' ω).bins = coarse)
    (hdata : ∀ ω, (b' ω).data = (b ω).data) :
    ∃ order : String → List Plugin,
      (∀ a, Part.sim a ∈ parts → Topological a.registry (S.binsOn ++ ["eff"]) (order a.comp)) ∧
      ∀ key0 batch0 q0 key batch q, (∀ p ∈ parts, p.name ++ "_rate" ∈ (replaceAlias S.al q0).keys) →
        (∀ p ∈ parts, p.name ++ "_rate" ∈ (replaceAlias S.al q).keys) →
        ∃ ss0 key0' ss key', Draws S order batch0 (replaceAlias S.al q0) parts key0 ss0 key0' ∧
          Draws S order batch (replaceAlias S.al q) parts key ss key' ∧
          ((∀ s ∈ ss0 ++ ss, s.Normalisable ∧ s.Filled) → (∀ c ∈ binList fine, 0 < expectedIn ss0 c) → (∀ c ∈ binList fine, 0 < expectedIn ss c) →
            (∀ c ∈ binList fine, Integrable (fun ω => (countIn fine (b ω).data c : ℝ)) μ) →
            (∀ c ∈ binList fine, ∫ ω, (countIn fine (b ω).data c : ℝ) ∂μ = expectedIn ss0 c) →
            ∃ v0 v w0 w : Ω → ℝ,
              (∀ ω, getLogLikelihood S.al (b ω).dataHist st key0 batch0 (floats q0) = .ok (key0', .fin (v0 ω))) ∧
              (∀ ω, getLogLikelihood S.al (b ω).dataHist st key batch (floats q) = .ok (key', .fin (v ω))) ∧
              (∀ ω, getLogLikelihood S.al (b' ω).dataHist st' key0 batch0 (floats q0) = .ok (key0', .fin (w0 ω))) ∧
              (∀ ω, getLogLikelihood S.al (b' ω).dataHist st' key batch (floats q) = .ok (key', .fin (w ω))) ∧
              Integrable v0 μ ∧ Integrable v μ ∧ Integrable w0 μ ∧ Integrable w μ ∧
              0 ≤ ∫ ω, w0 ω ∂μ - ∫ ω, w ω ∂μ ∧ ∫ ω, w0 ω ∂μ - ∫ ω, w ω ∂μ ≤ ∫ ω, v0 ω ∂μ - ∫ ω, v ω ∂μ) := by
  obtain ⟨order, o1, o2⟩ := both_binnings fine coarse hf hac S parts hS g1 g1' g2 g2' st st' hb hb'
  have ha := hS.ascending
  refine ⟨order, o1, fun key0 batch0 q0 key batch q hr0 hr => ?_⟩
  obtain ⟨ss0, key0', d0, c0, v0, w0⟩ := o2 key0 batch0 q0 hr0
  obtain ⟨ss, key', d, c1, v, w⟩ := o2 key batch q hr
  refine ⟨ss0, key0', ss, key', d0, d, fun hn hp0 hp hi hl => ?_⟩
  have hnf : ∀ ss' : List (Sample ℝ), (∀ s ∈ ss', s.cfg.bins = fine) → (∀ s ∈ ss', s.Normalisable ∧ s.Filled) →
      ∀ s ∈ ss', (s.withBins coarse).Normalisable := fun ss' hb hn s hs => by
    have e := hb s hs
    exact normalisable_withBins s (by rw [e]; exact hf) (by rw [e]; exact ha) hac (hn s hs).2 (hn s hs).1
  have hn0 : ∀ s ∈ ss0, s.Normalisable ∧ s.Filled := fun s hs => hn s (by simp [hs])
  have hn1 : ∀ s ∈ ss, s.Normalisable ∧ s.Filled := fun s hs => hn s (by simp [hs])
  have hd : ∀ ω, (b' ω).data = (b ω).data := hdata
  obtain ⟨hq0, hq1, a1, b1, e1, f1, z1, z2⟩ := power_core μ hf ha hac (fun ω => (b ω).data) ss0 ss c0 c1 hn0 hn1 hp0 hp hi hl
  refine ⟨_, _, _, _, fun ω => (v0 (fun s hs => (hn0 s hs).1) eq cfg (load ω) (b ω) (h ω) (hbins ω)).2 hp0,
    fun ω => (v (fun s hs => (hn1 s hs).1) eq cfg (load ω) (b ω) (h ω) (hbins ω)).2 hp,
    fun ω => ?_, fun ω => ?_, a1, b1, e1, f1, z1, z2⟩
  · rw [(w0 (hnf ss0 c0 hn0) eq' cfg' (load' ω) (b' ω) (h' ω) (hbins' ω)).2 hq0, hd]
  · rw [(w (hnf ss c1 hn1) eq' cfg' (load' ω) (b' ω) (h' ω) (hbins' ω)).2 hq1, hd]

/-- **C134 (floor).** With the floor, dividing bins further raises the prediction.  For components normalised to the number of simulated events,
with efficiencies and rates that are not negative, a coarse bin predicts at most what its pieces predict together, and the number of events predicted
in all bins is at least, for every component with a floor, the number of bins times the prediction for one event of average efficiency. -/
theorem C134_floor (fine coarse : Bins ℝ) (hf : Finer fine coarse) (hac : Ascending coarse) (S : Setup K) (parts : List Part)
    (hS : S.Proper fine parts) (g1 g1' g2 g2' : FnCache) (st st' : State K XF) (hb : S.build parts (⟨[], []⟩, g1) = ((st, g1'), .ok ()))
    (hb' : (S.withBins coarse).build parts (⟨[], []⟩, g2) = ((st', g2'), .ok ())) :
    ∃ order : String → List Plugin,
      (∀ a, Part.sim a ∈ parts → Topological a.registry (S.binsOn ++ ["eff"]) (order a.comp)) ∧
      ∀ key batch q, (∀ p ∈ parts, p.name ++ "_rate" ∈ (replaceAlias S.al q).keys) →
        ∃ ss key', Draws S order batch (replaceAlias S.al q) parts key ss key' ∧
          ((∀ s ∈ ss, s.Normalisable) → (∀ s ∈ ss, s.cfg.normType = "on_sim" ∧ 0 ≤ s.rate ∧ 0 ≤ s.norm ∧ ∀ e ∈ s.eff, 0 ≤ e) →
            ∀ eq cfg load b eq' cfg' load' b', init eq cfg load = .ok b → b.bins = fine → init eq' cfg' load' = .ok b' → b'.bins = coarse →
            ∃ (h h' : Grid ℝ) (n' : Nat × Nat → ℝ),
              simulateModelHist S.al b.dataHist st key batch (floats q) = .ok (key', gridFloats h) ∧
              simulateModelHist S.al b'.dataHist st' key batch (floats q) = .ok (key', gridFloats h') ∧
              h.flatten = (binList fine).map (expectedIn ss) ∧ h'.flatten = (binList coarse).map n' ∧
              (∀ c ∈ binList coarse, n' c ≤ ((piecesOf fine coarse c).map (expectedIn ss)).sum) ∧
              ((ss.filter (fun s => s.cfg.addEps)).map (fun s => ((binList fine).length : ℝ) * (s.rate * s.floor / s.norm))).sum
                ≤ h.flatten.sum) := by
  obtain ⟨order, o1, o2⟩ := both_binnings fine coarse hf hac S parts hS g1 g1' g2 g2' st st' hb hb'
  refine ⟨order, o1, fun key batch q hr => ?_⟩
  obtain ⟨ss, key', d, hbins, v, v'⟩ := o2 key batch q hr
  refine ⟨ss, key', d, fun hn hs eq cfg load b eq' cfg' load' b' h hb0 h' hb0' => ?_⟩
  have hn' : ∀ s ∈ ss, (s.withBins coarse).Normalisable := fun s hs' => by
    refine ⟨(hn s hs').1, ?_⟩
    have e : (s.withBins coarse).norm = s.norm := by
      unfold Sample.norm
      simp only [Sample.withBins, (hs s hs').1]
      rfl
    rw [e]
    exact (hn s hs').2
  obtain ⟨⟨t, t1, t2⟩, -⟩ := v hn eq cfg load b h hb0
  obtain ⟨⟨t', t1', t2'⟩, -⟩ := v' hn' eq' cfg' load' b' h' hb0'
  refine ⟨t, t', _, t1, t1', t2, t2', fun c hc => expectedIn_withBins_le fine ss hbins hf hS.ascending hac hs hc, ?_⟩
  rw [t2]
  exact total_floor fine ss fun s h => (hs s h).2

end

/-- **C134 (finer bins predict more).** Two simulated events in a bin of which half stays empty: two events are predicted if it is one bin, and
more than three if it is two bins. -/
theorem C134_empty_piece :
    let cfg : Comp.HistCfg ℚ := { bins := .irreg1 [0, 2], normType := "on_sim", nSelected := 0 }
    Finer (.irreg1 [0, 1, 2]) (.irreg1 [0, 2]) ∧
    Comp.simulateHist cfg false [[1 / 2, 1 / 2], [1, 1]] 2 2 = .ok [[2]] ∧
    Comp.simulateHist { cfg with bins := .irreg1 [0, 1, 2] } false [[1 / 2, 1 / 2], [1, 1]] 2 2 = .ok [[2, 1 + 1 / 10000000000]] := by
  refine ⟨⟨by norm_num, by simp, rfl, rfl⟩, by decide +kernel, by decide +kernel⟩

/-! ### A concrete case: two bins taken together -/

theorem oneBin : binList (.irreg1 ([0, 2] : List ℝ)) = [(0, 0)] := rfl

theorem oneFiner : Finer (.irreg1 [0, 1, 2]) (.irreg1 [0, 2]) := ⟨by norm_num, by simp, rfl, rfl⟩

theorem onePieces : piecesOf (.irreg1 [0, 1, 2]) (.irreg1 [0, 2]) (0, 0) = [(0, 0), (0, 1)] := by
  have ha : Ascending (.irreg1 ([0, 1, 2] : List ℝ)) := by simp [Ascending]
  unfold piecesOf
  rw [exBins, List.filter_eq_self]
  intro f hf
  rw [← exBins] at hf
  obtain ⟨c, hc, hw⟩ := within_exists oneFiner ha ((mem_binList _ ha f.1 f.2).1 hf)
  have : c ∈ binList (.irreg1 ([0, 2] : List ℝ)) := (mem_binList _ (by simp [Ascending]) c.1 c.2).2 hc
  rw [oneBin, List.mem_singleton] at this
  subst this
  simpa using hw

theorem oneBuild : ∃ st g', (noisySetup.withBins (.irreg1 [0, 2])).build [.sim exArgs] (⟨[], []⟩, {}) = ((st, g'), .ok ()) := ⟨_, _, rfl⟩

theorem oneInit (eq : Equi ℝ) : ∃ b, init eq { binsType := "irreg", binsOn := .str "cs1", bins := .list [.edges [0, 2]], clip := some (0, 2) }
      (fun _ => .ok [[some (1 / 2)], [some (3 / 2)], [some 7]]) = .ok b ∧ b.bins = .irreg1 [0, 2] := ⟨_, rfl, rfl⟩

theorem noRate : ∀ p ∈ [Part.sim exArgs], p.name ++ "_rate" ∈ (replaceAlias noisySetup.al [("er_rate", (3 : ℝ))]).keys := by
  intro p hp
  simp only [List.mem_singleton] at hp
  subst hp
  decide

theorem noisyFilled (batch : ℝ) (k : Bool) : (noisySample batch k).Filled := by
  intro h
  simp [noisySample, noisySetup] at h

/-- Non-vacuity of C134 (data and predictions): one data event and a prediction in each half, and their sums in the whole. -/
example (eq : Equi ℝ) : ∃ (b b' : Built ℝ) (st st' : State Bool XF) (h h' : Grid ℝ),
    at? b'.dataHist 0 0 = some ((at? b.dataHist 0 0).getD 0 + (at? b.dataHist 0 1).getD 0) ∧
    simulateModelHist [] b.dataHist st false 10 (floats [("er_rate", 3)]) = .ok (false, gridFloats h) ∧
    simulateModelHist [] b'.dataHist st' false 10 (floats [("er_rate", 3)]) = .ok (false, gridFloats h') ∧
    h.flatten = [3 / 4, 9 / 4] ∧ h'.flatten = [3] := by
  obtain ⟨st, g, hb⟩ := noisyBuild
  obtain ⟨st', g', hb'⟩ := oneBuild
  obtain ⟨b, i1, i2, -⟩ := noisyInit eq
  obtain ⟨b', j1, j2⟩ := oneInit eq
  have hac : Ascending (.irreg1 ([0, 2] : List ℝ)) := by simp [Ascending]
  have ha : Ascending (.irreg1 ([0, 1, 2] : List ℝ)) := by simp [Ascending]
  have hdata := (C134_data eq _ (.list [.edges [0, 1, 2]]) _ b' b j1 i1).2 (by rw [i2, j2]; exact oneFiner) (by rw [i2]; exact ha)
    (by rw [j2]; exact hac) (0, 0) (by rw [j2, oneBin]; simp)
  rw [i2, j2, onePieces] at hdata
  obtain ⟨order, e1, e2⟩ := C134_predictions _ _ oneFiner hac noisySetup [.sim exArgs] noisyProper _ _ _ _ st st' hb hb'
  obtain ⟨ss, k, d, e3⟩ := e2 false 10 [("er_rate", 3)] noRate
  obtain ⟨rfl, rfl⟩ := noisyDraws (e1 exArgs (by simp)) d
  obtain ⟨h, h', f1, f2, f3, f4⟩ := e3 (by simpa using (noisyExpected _ _).1) (by simpa using noisyFilled _ _) _ _ _ b _ _ _ b' i1 i2 j1 j2
  obtain ⟨-, a0, a1⟩ := noisyExpected 10 false
  have x0 : expectedIn [noisySample 10 false] (0, 0) = 3 / 4 := by simp [expectedIn, a0]
  have x1 : expectedIn [noisySample 10 false] (0, 1) = 9 / 4 := by simp [expectedIn, a1]
  refine ⟨b, b', st, st', h, h', by simpa using hdata, f1, f2, ?_, ?_⟩
  · rw [f3, exBins]
    simp only [Int.cast_ofNat, List.map_cons, List.map_nil, x0, x1]
  · rw [f4, oneBin]
    simp only [Int.cast_ofNat, List.map_cons, List.map_nil, onePieces, x0, x1, List.sum_cons, List.sum_nil]
    norm_num

/-- One of four data sets has three and nine events in the two halves, the others have none. -/
noncomputable def rareLaw : Measure (Fin 4) := (4 : ENNReal)⁻¹ • Measure.count

noncomputable def rareEvents (ω : Fin 4) : List (List (Option ℝ)) :=
  if ω = 0 then List.replicate 3 [some (1 / 2)] ++ List.replicate 9 [some (3 / 2)] else []

instance : IsProbabilityMeasure rareLaw := by
  constructor
  simp [rareLaw, Measure.count_univ]
  exact ENNReal.inv_mul_cancel (by norm_num) (by norm_num)

theorem rareInit (eq : Equi ℝ) (e : List ℝ) (ω : Fin 4) :
    ∃ b, init eq { binsType := "irreg", binsOn := .str "cs1", bins := .list [.edges e], clip := some (0, 2) }
      (fun _ => .ok (rareEvents ω)) = .ok b ∧ b.bins = .irreg1 e ∧ b.data = rareEvents ω := by
  refine ⟨_, rfl, rfl, ?_⟩
  unfold rareEvents
  split
  · simp only [List.filter_append, List.filter_replicate, inside, entry]
    norm_num
  · rfl

theorem rareCount (ω : Fin 4) : countIn (.irreg1 [0, 1, 2]) (rareEvents ω) (0, 0) = (if ω = 0 then 3 else 0) ∧
    countIn (.irreg1 [0, 1, 2]) (rareEvents ω) (0, 1) = if ω = 0 then 9 else 0 := by
  unfold rareEvents
  split
  · constructor
    · simp only [countIn, List.countP_append, List.countP_replicate]
      rw [if_pos, if_neg] <;> simp [EventIn, InUpper] <;> norm_num
    · simp only [countIn, List.countP_append, List.countP_replicate]
      rw [if_neg, if_pos] <;> simp [EventIn, InUpper] <;> norm_num
  · simp [countIn]

theorem rareMean (f : Fin 4 → ℝ) : Integrable f rareLaw ∧ ∫ ω, f ω ∂rareLaw = (∑ ω, f ω) / 4 := by
  refine ⟨.of_finite, ?_⟩
  unfold rareLaw
  rw [integral_smul_measure, integral_count]
  simp only [ENNReal.toReal_inv, ENNReal.toReal_ofNat, smul_eq_mul]
  ring

/-- Non-vacuity of C134 (power): data that are on average what the model predicts for one key. -/
example (eq : Equi ℝ) : ∃ (b b' : Fin 4 → Built ℝ) (st st' : State Bool XF) (v0 v w0 w : Fin 4 → ℝ),
    (∀ ω, (b ω).data = rareEvents ω) ∧ (∀ ω, (b' ω).data = rareEvents ω) ∧
    (∀ ω, getLogLikelihood [] (b ω).dataHist st false 10 (floats [("er_rate", 3)]) = .ok (false, .fin (v0 ω))) ∧
    (∀ ω, getLogLikelihood [] (b ω).dataHist st true 10 (floats [("er_rate", 3)]) = .ok (true, .fin (v ω))) ∧
    (∀ ω, getLogLikelihood [] (b' ω).dataHist st' false 10 (floats [("er_rate", 3)]) = .ok (false, .fin (w0 ω))) ∧
    (∀ ω, getLogLikelihood [] (b' ω).dataHist st' true 10 (floats [("er_rate", 3)]) = .ok (true, .fin (w ω))) ∧
    0 ≤ ∫ ω, w0 ω ∂rareLaw - ∫ ω, w ω ∂rareLaw ∧
    ∫ ω, w0 ω ∂rareLaw - ∫ ω, w ω ∂rareLaw ≤ ∫ ω, v0 ω ∂rareLaw - ∫ ω, v ω ∂rareLaw := by
  obtain ⟨st, g, hb⟩ := noisyBuild
  obtain ⟨st', g', hb'⟩ := oneBuild
  choose b i1 i2 i3 using rareInit eq [0, 1, 2]
  choose b' j1 j2 j3 using rareInit eq [0, 2]
  have hac : Ascending (.irreg1 ([0, 2] : List ℝ)) := by simp [Ascending]
  obtain ⟨order, e1, e2⟩ := C134_power rareLaw _ _ oneFiner hac noisySetup [.sim exArgs] noisyProper _ _ _ _ st st' hb hb' eq eq _ _ _ _ b b' i1 j1
    i2 j2 (fun ω => by rw [i3, j3])
  obtain ⟨ss0, k0, ss, k, d0, d, e3⟩ := e2 false 10 [("er_rate", 3)] true 10 [("er_rate", 3)] noRate noRate
  obtain ⟨rfl, rfl⟩ := noisyDraws (e1 exArgs (by simp)) d0
  obtain ⟨rfl, rfl⟩ := noisyDraws (e1 exArgs (by simp)) d
  obtain ⟨v0, v, w0, w, f1, f2, f3, f4, -, -, -, -, f5, f6⟩ := e3
    (by
      intro s hs
      simp only [List.cons_append, List.nil_append, List.mem_cons, List.not_mem_nil, or_false] at hs
      rcases hs with rfl | rfl <;> exact ⟨(noisyExpected _ _).1, noisyFilled _ _⟩)
    (noisyPos _ _) (noisyPos _ _) (fun c _ => (rareMean _).1)
    (by
      intro c hc
      rw [exBins] at hc
      simp only [List.mem_cons, List.not_mem_nil, or_false] at hc
      obtain ⟨-, a0, a1⟩ := noisyExpected ((10 : ℤ) : ℝ) false
      rw [(rareMean _).2]
      simp only [i3]
      rcases hc with rfl | rfl
      · simp only [fun ω => (rareCount ω).1, expectedIn, List.map_cons, List.map_nil, a0, Fin.sum_univ_four]
        norm_num
      · simp only [fun ω => (rareCount ω).2, expectedIn, List.map_cons, List.map_nil, a1, Fin.sum_univ_four]
        norm_num)
  exact ⟨b, b', st, st', v0, v, w0, w, i3, j3, f1, f2, f3, f4, f5, f6⟩

/-- The same component normalised to the number of simulated events, with the floor. -/
noncomputable def floorSetup : Setup Bool :=
  { noisySetup with cfg := fun _ => { bins := .irreg1 [0, 1, 2], normType := "on_sim", addEps := true, nSelected := 0, energy := .simulated } }

theorem floorProper : floorSetup.Proper (.irreg1 [0, 1, 2]) [.sim exArgs] :=
  { noisyProper with bins_eq := fun _ _ => rfl }

theorem floorDraws {order : String → List Plugin} (ht : Topological exArgs.registry (["cs1"] ++ ["eff"]) (order "er"))
    {batch : Int} {k k' : Bool} {ss : List (Sample ℝ)}
    (h : Draws floorSetup order batch [("er_rate", 3)] [.sim exArgs] k ss k') :
    ss = [⟨floorSetup.cfg "er", [noisyCol k], noisyCol k, 3, batch⟩] ∧ k' = k := by
  cases h with
  | @sim _ _ _ _ _ _ val cols eff rate h1 h2 h3 h4 h5 h6 =>
    obtain ⟨h7, rfl⟩ := noisyDraws ht (.sim h1 h2 h3 h4 h5 (.nil _))
    cases h6
    simp only [noisySample, List.cons.injEq, Sample.mk.injEq, and_true] at h7
    obtain ⟨-, rfl, rfl, rfl⟩ := h7
    exact ⟨rfl, rfl⟩

/-- Non-vacuity of C134 (floor): a component with the floor, in one and in two bins. -/
example (eq : Equi ℝ) : ∃ (b b' : Built ℝ) (st st' : State Bool XF) (h h' : Grid ℝ) (v0 v1 w : ℝ),
    simulateModelHist [] b.dataHist st false 10 (floats [("er_rate", 3)]) = .ok (false, gridFloats h) ∧
    simulateModelHist [] b'.dataHist st' false 10 (floats [("er_rate", 3)]) = .ok (false, gridFloats h') ∧
    h.flatten = [v0, v1] ∧ h'.flatten = [w] ∧ w ≤ v0 + v1 ∧ 3 / 5 ≤ v0 + v1 := by
  obtain ⟨st, g, hb⟩ : ∃ st g', floorSetup.build [.sim exArgs] (⟨[], []⟩, {}) = ((st, g'), .ok ()) := ⟨_, _, rfl⟩
  obtain ⟨st', g', hb'⟩ : ∃ st g', (floorSetup.withBins (.irreg1 [0, 2])).build [.sim exArgs] (⟨[], []⟩, {}) = ((st, g'), .ok ()) := ⟨_, _, rfl⟩
  obtain ⟨b, i1, i2, -⟩ := noisyInit eq
  obtain ⟨b', j1, j2⟩ := oneInit eq
  have hac : Ascending (.irreg1 ([0, 2] : List ℝ)) := by simp [Ascending]
  obtain ⟨order, e1, e2⟩ := C134_floor _ _ oneFiner hac floorSetup [.sim exArgs] floorProper _ _ _ _ st st' hb hb'
  obtain ⟨ss, k, d, e3⟩ := e2 false 10 [("er_rate", 3)] noRate
  obtain ⟨rfl, rfl⟩ := floorDraws (e1 exArgs (by simp)) d
  have hnorm : ∀ s ∈ [(⟨floorSetup.cfg "er", [noisyCol false], noisyCol false, 3, ((10 : ℤ) : ℝ)⟩ : Sample ℝ)], s.norm = 10 := by
    intro s hs
    rw [List.mem_singleton] at hs
    subst hs
    simp [Sample.norm, floorSetup]
  obtain ⟨h, h', n', f1, f2, f3, f4, f5, f6⟩ := e3
    (by
      intro s hs
      have := hnorm s hs
      rw [List.mem_singleton] at hs
      subst hs
      exact ⟨.inr ⟨rfl, .inl rfl⟩, by rw [this]; norm_num⟩)
    (by
      intro s hs
      have hn := hnorm s hs
      rw [List.mem_singleton] at hs
      subst hs
      refine ⟨rfl, by norm_num, by rw [hn]; norm_num, ?_⟩
      simp [noisyCol]
      norm_num) _ _ _ b _ _ _ b' i1 i2 j1 j2
  have f7 := f5 (0, 0) (by rw [oneBin]; simp)
  rw [onePieces] at f7
  refine ⟨b, b', st, st', h, h', _, _, _, f1, f2, by rw [f3, exBins]; rfl, by rw [f4, oneBin]; rfl, by simpa using f7, ?_⟩
  rw [f3, exBins] at f6
  simp only [floorSetup, List.filter_cons, List.filter_nil, if_true, List.map_cons, List.map_nil, List.sum_cons, List.sum_nil, add_zero] at f6
  refine le_trans ?_ f6
  have := hnorm _ (List.mem_singleton.2 rfl)
  simp only [floorSetup] at this
  rw [this]
  simp [Sample.floor, noisyCol]
  norm_num

end Verif.Llh
