/-
C135: the units of the binned quantities do not matter.
-/
import Verif.Lemmas.Units
import Verif.Props.Noise

namespace Verif.Llh
open Verif Comp

section
variable {F : Type} [Field F] [LinearOrder F]

/-- **C135 (data).** Write data, edges and ranges in other units: the likelihood holds the same data in these units, and the same data histogram; what
was refused is refused in the same way.  The edges have to be written out; for a number of bins the conversion has to be a change of scale and origin,
and for equiprobable bins the edges found for the data have to be converted with the data. -/
theorem C135_data [IsStrictOrderedRing F] (t : Nat → F → F) (ht : ∀ i, StrictMono (t i)) (eq eq' : Equi F) (cfg : Config F)
    (load : List String → Res (List (List (Option F))))
    (hc : Explicit cfg.bins ∨ (cfg.binsType ≠ "equiprob" ∧ Affine (t 0) ∧ Affine (t 1)) ∨ (cfg.binsType = "equiprob" ∧ Follows t eq eq')) :
    (∀ b, init eq cfg load = .ok b → ∃ b', init eq' (configIn t cfg) (loadIn t load) = .ok b' ∧ b'.binsOn = b.binsOn ∧
      b'.data = b.data.map (rowIn t) ∧ b'.bins = binsIn t b.bins ∧ b'.dataHist = b.dataHist) ∧
    ∀ e, init eq cfg load = .error e → init eq' (configIn t cfg) (loadIn t load) = .error e := by
  have hi := init_inUnits ht eq eq' cfg load (by
    intro on specs hn
    rcases hc with h | h | h
    · refine .inl ?_
      cases hb : cfg.bins with
      | int n => rw [hb] at h; exact absurd h id
      | other => rw [hb] at h; exact absurd h id
      | list l =>
        rw [hb] at h hn
        have : specs = l := by cases ho : cfg.binsOn <;> rw [ho] at hn <;> cases hn <;> rfl
        rw [this]
        exact h
    · exact .inr (.inl h)
    · exact .inr (.inr h))
  refine ⟨fun b h => ?_, fun e h => ?_⟩
  · rw [h] at hi
    exact ⟨_, hi, rfl, rfl, rfl, rfl⟩
  · rw [h] at hi
    exact hi

/-- **C135 (histogram).** A simulated histogram is the same for columns and edges in other units, with and without the efficiency as last column. -/
theorem C135_histogram (t : Nat → F → F) (ht : ∀ i, StrictMono (t i)) (cfg : HistCfg F) (cols : List (List F)) (eff : List F) (rate batch : F) :
    simulateHist { cfg with bins := binsIn t cfg.bins } false (colsIn t cols ++ [eff]) rate batch = simulateHist cfg false (cols ++ [eff]) rate batch ∧
    simulateHist { cfg with bins := binsIn t cfg.bins } true (colsIn t cols) rate batch = simulateHist cfg true cols rate batch := by
  have hl : (colsIn t cols).length = cols.length := by simp [colsIn]
  refine ⟨?_, ?_⟩
  · simp only [simulateHist, splitEff, List.getLast?_concat, List.dropLast_concat, bind, Except.bind, Bool.false_eq_true, if_false, hl, dims_binsIn,
      implementBinning_inUnits ht, normalization_inUnits]
  · have h : splitEff (1 : F) true (colsIn t cols) = (splitEff 1 true cols).map (fun r => (colsIn t r.1, r.2)) := by
      rcases List.eq_nil_or_concat cols with rfl | ⟨cs, c, rfl⟩
      · rfl
      · simp [splitEff, colsIn, List.mapIdx_append, Except.map]
    simp only [simulateHist, h]
    cases hs : splitEff (1 : F) true cols with
    | error e => rfl
    | ok r =>
      have hr : (colsIn t r.1).length = r.1.length := by simp [colsIn]
      simp only [Except.map, bind, Except.bind, hr, dims_binsIn, implementBinning_inUnits ht, normalization_inUnits]

/-- **C135 (weighted data).** The weighted events of a simulation in other units are the same events with the same weights. -/
theorem C135_weighted (t : Nat → F → F) (ht : ∀ i, StrictMono (t i)) (cfg : HistCfg F) (cols : List (List F)) (eff : List F) (rate batch : F) :
    Comp.simulateWeighted { cfg with bins := binsIn t cfg.bins } (colsIn t cols) eff rate batch
      = (Comp.simulateWeighted cfg cols eff rate batch).map (fun r => (colsIn t r.1, r.2)) := by
  have hl : ∀ cs : List (List F), (colsIn t cs).length = cs.length := fun cs => by simp [colsIn]
  simp only [Comp.simulateWeighted, clipResult_inUnits ht, hl, dims_binsIn, implementBinning_inUnits ht, normalization_inUnits]
  split
  · rfl
  · cases implementBinning cfg (clipResult cfg.bins cols eff).1 (clipResult cfg.bins cols eff).2 with
    | error e => rfl
    | ok h =>
      simp only [bind, Except.bind]
      cases normalization cfg h rate batch <;> rfl

end

section
variable {K : Type}

/-- **C135 (log likelihood).** Let every plugin take and give its quantities in other units, and let the edges of the bins, the tables of fixed
components and the data be converted.  Then, for every key, the predictions and the log likelihood are the same. -/
theorem C135_log_likelihood (U : Units) (bins : Bins ℝ) (S : Setup K) (parts : List Part) (hS : S.Proper bins parts) (g1 g1' g2 g2' : FnCache)
    (st st' : State K XF) (hb : S.build parts (⟨[], []⟩, g1) = ((st, g1'), .ok ()))
    (hb' : (S.inUnits U).build (parts.map (Part.inUnits (U.axes S.binsOn))) (⟨[], []⟩, g2) = ((st', g2'), .ok ())) :
    ∃ order : String → List Plugin,
      (∀ a, Part.sim a ∈ parts → Topological a.registry (S.binsOn ++ ["eff"]) (order a.comp)) ∧
      ∀ key batch q, (∀ p ∈ parts, p.name ++ "_rate" ∈ (replaceAlias S.al q).keys) →
        ∃ ss key', Draws S order batch (replaceAlias S.al q) parts key ss key' ∧
          ((∀ s ∈ ss, s.Normalisable) →
            ∀ eq cfg load b eq' cfg' load' b', init eq cfg load = .ok b → b.bins = bins → init eq' cfg' load' = .ok b' →
            b'.bins = binsIn (U.axes S.binsOn) bins → b'.data = b.data.map (rowIn (U.axes S.binsOn)) →
            (∃ h h' : Grid ℝ, simulateModelHist S.al b.dataHist st key batch (floats q) = .ok (key', gridFloats h) ∧
              simulateModelHist S.al b'.dataHist st' key batch (floats q) = .ok (key', gridFloats h') ∧ h'.flatten = h.flatten) ∧
            ∃ v, getLogLikelihood S.al b.dataHist st key batch (floats q) = .ok (key', v) ∧
              getLogLikelihood S.al b'.dataHist st' key batch (floats q) = .ok (key', v)) := by
  obtain ⟨order, o1, o2⟩ := log_likelihood_ordered bins S parts hS g1 g1' st hb
  have hS' := proper_inUnits U hS
  obtain ⟨order', p1, p2⟩ := log_likelihood_ordered _ (S.inUnits U) _ hS' g2 g2' st' hb'
  have ht : ∀ i, StrictMono (U.axes S.binsOn i) := fun i => U.mono _
  have hsim : ∀ a, Part.sim a ∈ parts → Part.sim a ∈ parts.map (Part.inUnits (U.axes S.binsOn)) := fun a ha => List.mem_map.2 ⟨_, ha, rfl⟩
  refine ⟨order, fun a ha => (o1 a ha).2, fun key batch q hr => ?_⟩
  obtain ⟨ss, key', d, hv⟩ := o2 key batch q hr
  obtain ⟨ss', key'', d', hv'⟩ := p2 key batch q (by
    intro p hp
    obtain ⟨p0, hp0, rfl⟩ := List.mem_map.1 hp
    have : (p0.inUnits (U.axes S.binsOn)).name = p0.name := by cases p0 <;> rfl
    rw [this]
    exact hr p0 hp0)
  have d2 := draws_inUnits U (order' := order') (fun a ha => by rw [(o1 a ha).1, (p1 a (hsim a ha)).1]; rfl) d
  obtain ⟨rfl, rfl⟩ := draws_unique (S.inUnits U) _ _ hS' order' (fun a ha => (p1 a ha).2) batch _ _ (fun _ h => h) d2 d'
  refine ⟨ss, key', d, fun hn eq cfg load b eq' cfg' load' b' h hbins h' hbins' hdata => ?_⟩
  obtain ⟨⟨hh, a1, a2⟩, a3, a4⟩ := hv hn eq cfg load b h hbins
  obtain ⟨⟨hh', b1, b2⟩, b3, b4⟩ := hv' (by
    intro s hs
    obtain ⟨s0, h0, rfl⟩ := List.mem_map.1 hs
    refine ⟨(hn s0 h0).1, ?_⟩
    rw [(expected_inUnits ht s0 (0, 0)).2]
    exact (hn s0 h0).2) eq' cfg' load' b' h' hbins'
  rw [hbins'] at b2 b3 b4
  rw [hbins] at a2 a3 a4
  simp only [binList_inUnits, expectedIn_inUnits ht] at b2 b3 b4
  refine ⟨⟨hh, hh', a1, b1, ?_⟩, ?_⟩
  · rw [a2, b2]
    exact List.map_congr_left fun c _ => expectedIn_inUnits ht ss c
  · by_cases hp : ∀ c ∈ binList bins, 0 < expectedIn ss c
    · refine ⟨_, a3 hp, ?_⟩
      have := b3 hp
      rw [hdata, binnedLogL_inUnits ht] at this
      exact this
    · push Not at hp
      exact ⟨_, a4 hp, b4 hp⟩

end
/-! ### A concrete case: the signal on an exponential scale -/

/-- `cs1` replaced by its exponential. -/
noncomputable def expUnits : Units where
  conv d := if d = "cs1" then Real.exp else id
  back d := if d = "cs1" then Real.log else id
  mono d := by
    split
    · exact Real.exp_strictMono
    · exact strictMono_id
  back_conv d x := by
    by_cases h : d = "cs1" <;> simp [h]
  eff := by simp

theorem expBuild : ∃ st g', (noisySetup.inUnits expUnits).build ([.sim exArgs].map (Part.inUnits (expUnits.axes noisySetup.binsOn))) (⟨[], []⟩, {})
    = ((st, g'), .ok ()) := ⟨_, _, rfl⟩

/-- Non-vacuity of C135: the data selected between 0 and 2, in bins with edges 0, 1, 2, give the same log likelihood as their exponentials. -/
example (eq : Equi ℝ) : ∃ (b b' : Built ℝ) (st st' : State Bool XF) (v : XF),
    b.data = [[some (1 / 2)], [some (3 / 2)]] ∧ b'.data = [[some (Real.exp (1 / 2))], [some (Real.exp (3 / 2))]] ∧
    b'.bins = .irreg1 [Real.exp 0, Real.exp 1, Real.exp 2] ∧ b'.dataHist = b.dataHist ∧
    getLogLikelihood [] b.dataHist st false 10 (floats [("er_rate", 3)]) = .ok (false, v) ∧
    getLogLikelihood [] b'.dataHist st' false 10 (floats [("er_rate", 3)]) = .ok (false, v) := by
  obtain ⟨st, g, hb⟩ := noisyBuild
  obtain ⟨st', g', hb'⟩ := expBuild
  obtain ⟨b, i1, i2, i3⟩ := noisyInit eq
  have ht : ∀ i, StrictMono (expUnits.axes noisySetup.binsOn i) := fun i => expUnits.mono _
  have h0 : expUnits.axes noisySetup.binsOn 0 = Real.exp := by simp [Units.axes, noisySetup, expUnits]
  obtain ⟨b', j1, -, j3, j4, j5⟩ := (C135_data _ ht eq eq _ _ (.inl (by intro s hs n; simp at hs; subst hs; simp))).1 b i1
  obtain ⟨order, e1, e2⟩ := C135_log_likelihood expUnits _ noisySetup [.sim exArgs] noisyProper _ _ _ _ st st' hb hb'
  obtain ⟨ss, k, d, e3⟩ := e2 false 10 [("er_rate", 3)] (by
    intro p hp
    simp only [List.mem_singleton] at hp
    subst hp
    decide)
  obtain ⟨rfl, rfl⟩ := noisyDraws (e1 exArgs (by simp)) d
  obtain ⟨-, v, f1, f2⟩ := e3 (by simpa using (noisyExpected _ _).1) _ _ _ b _ _ _ b' i1 i2 j1 (by rw [j4, i2]) j3
  refine ⟨b, b', st, st', v, i3, ?_, ?_, j5, f1, f2⟩
  · rw [j3, i3]
    simp [rowIn, h0]
  · rw [j4, i2]
    simp [binsIn, h0]

/-- Non-vacuity of C135 for a number of bins: four bins between 0 and 8 in other units are the same four bins. -/
example (eq : Equi ℚ) (rows : List (List (Option ℚ))) :
    ∃ b b', init eq { binsType := "meshgrid", binsOn := .str "cs1", bins := .int 4, clip := some (0, 8) } (fun _ => .ok rows) = .ok b ∧
      init eq { binsType := "meshgrid", binsOn := .str "cs1", bins := .int 4, clip := some (32, 32 + 8 * 9 / 5) }
        (fun _ => .ok (rows.map (rowIn (fun _ x => 9 / 5 * x + 32)))) = .ok b' ∧ b'.dataHist = b.dataHist := by
  obtain ⟨b, hb⟩ : ∃ b, init eq { binsType := "meshgrid", binsOn := .str "cs1", bins := .int 4, clip := some (0, 8) } (fun _ => .ok rows) = .ok b :=
    ⟨_, rfl⟩
  refine ⟨b, ?_⟩
  have ht : ∀ i : Nat, StrictMono ((fun _ x => 9 / 5 * x + 32 : Nat → ℚ → ℚ) i) := fun i a b h => by simp only; linarith
  obtain ⟨b', h1, -, -, -, h5⟩ := (C135_data _ ht eq eq { binsType := "meshgrid", binsOn := .str "cs1", bins := .int 4, clip := some (0, 8) }
    (fun _ => .ok rows) (.inr (.inl ⟨by decide, ⟨_, _, fun _ => rfl⟩, ⟨_, _, fun _ => rfl⟩⟩))).1 b hb
  refine ⟨b', hb, ?_, h5⟩
  rw [← h1]
  simp only [configIn, binsValIn, clipIn, loadIn, Option.map, Except.map]
  norm_num
  rfl

end Verif.Llh
