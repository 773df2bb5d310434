/-
C79: the chain from plugins and data files to the posterior, with all the parts of the model put together.
-/
import Verif.Lemmas.WholeChain

namespace Verif.Llh
open Verif Comp

/-- **C79 (bins).** The bins of the likelihood are listed once each. -/
theorem C79_bins (bins : Bins ℝ) (ha : Ascending bins) :
    (binList bins).Nodup ∧ ∀ i j, (i, j) ∈ binList bins ↔ IsBin bins i j :=
  ⟨nodup_cells _, mem_binList bins ha⟩

/-- **C79 (one component).** For every kind of bins, the histogram of a simulated component holds in each bin the rate times the
weight of the events in it (raised to the floor if asked for) divided by the normalisation. -/
theorem C79_component_histogram (s : Sample ℝ) (ha : Ascending s.cfg.bins) (hd : s.cols.length = s.cfg.bins.dims)
    (hn : s.Normalisable) :
    ∃ h, Comp.simulateHist s.cfg false (s.cols ++ [s.eff]) s.rate s.simulated = .ok h ∧
      ∀ i j, IsBin s.cfg.bins i j → at? h i j = some (s.expected (i, j)) := by
  obtain ⟨h, h1, _, h3⟩ := simulateHist_spec s ha hd hn
  exact ⟨h, h1, h3⟩

section
variable {K : Type}

/-- **C79 (samples).** The samples of the components are determined by the key, the batch size and the parameters. -/
theorem C79_samples_unique (S : Setup K) (bins : Bins ℝ) (parts : List Part) (hS : S.Proper bins parts)
    (order : String → List Plugin)
    (hord : ∀ a, Part.sim a ∈ parts → Topological a.registry (S.binsOn ++ ["eff"]) (order a.comp)) (batch : Int)
    (q : PyDict String ℝ) (key k1 k2 : K) (ss ss' : List (Sample ℝ)) (h : Draws S order batch q parts key ss k1)
    (h' : Draws S order batch q parts key ss' k2) : ss = ss' ∧ k1 = k2 :=
  draws_unique S bins parts hS order hord batch q parts (fun _ h => h) h h'

/-- **C79 (log likelihood).** A likelihood made from a data file, with components compiled from plugins or made from tables.  Its
plugins can be ordered so that, for every key, batch size and parameters containing the rates, the components have samples
drawn by the data flow through the plugins, and (if these can be normalised) the log likelihood is the binned Poisson one of
the data events against the events expected from the samples; minus infinity if some bin expects none. -/
theorem C79_log_likelihood (eq : Equi ℝ) (cfg : Config ℝ) (load : List String → Res (List (List (Option ℝ)))) (b : Built ℝ)
    (h : init eq cfg load = .ok b) (S : Setup K) (parts : List Part) (hS : S.Proper b.bins parts) (g g' : FnCache)
    (st : State K XF) (hb : S.build parts (⟨[], []⟩, g) = ((st, g'), .ok ())) :
    ∃ order : String → List Plugin,
      (∀ a, Part.sim a ∈ parts → Topological a.registry (S.binsOn ++ ["eff"]) (order a.comp)) ∧
      ∀ key batch q, (∀ p ∈ parts, p.name ++ "_rate" ∈ (replaceAlias S.al q).keys) →
        ∃ ss key', Draws S order batch (replaceAlias S.al q) parts key ss key' ∧
          ((∀ s ∈ ss, s.Normalisable) →
            ((∀ c ∈ binList b.bins, 0 < expectedIn ss c) →
              getLogLikelihood S.al b.dataHist st key batch (floats q) = .ok (key', .fin (binnedLogL b.bins b.data ss))) ∧
            ((∃ c ∈ binList b.bins, expectedIn ss c ≤ 0) →
              getLogLikelihood S.al b.dataHist st key batch (floats q) = .ok (key', .ninf))) :=
  log_likelihood_of_build eq cfg load b h S parts hS g g' st hb

/-- **C79 (posterior).** A context whose likelihoods are made from data files, with components compiled from plugins or made from
tables.  If setting the parameters gives the finite values `q` with a finite log prior, every repetition has samples drawn by
the data flow through the plugins of all the likelihoods, one likelihood after the other.  If these can be normalised and every
bin expects events, the log posterior is the log prior plus the mean over the repetitions of the binned Poisson log likelihoods
of all data; if some bin of some repetition expects none, it is minus infinity. -/
theorem C79_posterior (c : Ctx.Ctx K) (fs : List (Fitted K)) (hfs : List.Forall₂ (fun e f => Fitted.Made f e) c.likelihoods fs)
    (hnames : (fs.map Fitted.name).Nodup) :
    ∃ order : String → String → List Plugin,
      (∀ f ∈ fs, ∀ a, Part.sim a ∈ f.parts → Topological a.registry (f.setup.binsOn ++ ["eff"]) (order f.name a.comp)) ∧
      ∀ sig ord keys params batch repeats pm lp q,
        Parameter.setParameter c.pm params .none = (pm, .ok ()) → pm.vals = floats q →
        Parameter.logPriorOver sig pm ord = .ok (.fin lp) →
        (∀ f ∈ fs, ∀ p ∈ f.parts, p.name ++ "_rate" ∈ (replaceAlias f.setup.al q).keys) →
        ∃ sss : Nat → List (List (Sample ℝ)),
          (∀ i, ∃ key', DrawsAll order batch q fs (keys i) (sss i) key') ∧
          ((∀ i < Ctx.evaluations repeats, ∀ ss ∈ sss i, ∀ s ∈ ss, s.Normalisable) →
            ((∀ i < Ctx.evaluations repeats, List.Forall₂ (fun f ss => ∀ b ∈ binList f.bins, 0 < expectedIn ss b) fs (sss i)) →
              (Ctx.logPosterior sig ord keys c params batch repeats).2 =
                .ok (.fin (((List.range (Ctx.evaluations repeats)).map (fun i =>
                  (List.zipWith (fun f ss => binnedLogL f.bins f.data ss) fs (sss i)).sum)).sum / Ctx.evaluations repeats + lp),
                  .fin lp)) ∧
            ((∃ i < Ctx.evaluations repeats,
                ¬ List.Forall₂ (fun f ss => ∀ b ∈ binList f.bins, 0 < expectedIn ss b) fs (sss i)) →
              (Ctx.logPosterior sig ord keys c params batch repeats).2 = .ok (.ninf, .fin lp))) := by
  obtain ⟨order, h1, h2⟩ := all_likelihoods c.likelihoods fs hfs hnames
  refine ⟨order, h1, ?_⟩
  intro sig ord keys params batch repeats pm lp q hset hq hlp hr
  choose sss key' e1 el e2 using fun i => h2 order (fun _ _ => rfl) (keys i) batch q hr
  refine ⟨sss, fun i => ⟨_, e1 i⟩, ?_⟩
  intro hn
  have e3 : ∀ i < Ctx.evaluations repeats, Ctx.Evals batch pm.vals c.likelihoods (keys i) (List.zipWith valueOf fs (sss i)) :=
    fun i hi => by rw [hq]; exact e2 i (hn i hi)
  constructor
  · intro hp
    have e4 : ∀ i < Ctx.evaluations repeats, Ctx.Evals batch pm.vals c.likelihoods (keys i)
        ((List.zipWith (fun f ss => binnedLogL f.bins f.data ss) fs (sss i)).map XF.fin) := by
      intro i hi
      rw [← values_fin fs (sss i) (hp i hi)]
      exact e3 i hi
    exact Ctx.C40_value sig ord keys c params batch repeats pm lp hset hlp _ e4
  · rintro ⟨i, hi, hneg⟩
    refine Ctx.C40_minus_infinity sig ord keys c params batch repeats pm lp hset hlp
      (fun i => List.zipWith valueOf fs (sss i)) e3 ?_ ⟨i, hi, ?_⟩
    · exact fun j _ v hv => values_good fs (sss j) v hv
    · exact values_ninf fs (sss i) (el i) hneg

end

/-! ### A concrete case: one simulated component (two plugins) and a table of two events, the rate of the first given under an
alias -/

def exEnergy : Plugin := ⟨"Energy", ["energy"], ["batch_size"], [], []⟩
def exSignal : Plugin := ⟨"Signal", ["cs1", "eff"], ["energy"], [], []⟩
def exArgs : SimArgs := { comp := "er", registry := [("energy", exEnergy), ("cs1", exSignal), ("eff", exSignal)] }

noncomputable def exSetup : Setup Nat where
  llh := "l"
  binsOn := ["cs1"]
  al := [("amount", "er_rate")]
  cfg := fun _ => { bins := .irreg1 [0, 1, 2], normType := "on_pdf", addEps := false, nSelected := 0 }
  ns := [("Energy", exEnergy), ("Signal", exSignal)]
  sem := fun _ p k _ => .ok (k + 1, p.provides.map (fun _ => .col [1 / 2, 3 / 2]))
  odd := fun _ _ _ => .error .typeError
  oddFixed := fun _ => .error .typeError

noncomputable def exParts : List Part := [.sim exArgs, .fixed "ac" [[1 / 2, 3 / 2]] 2]

theorem exReach {d : String} (h : Reach exArgs.registry "batch_size" (["cs1"] ++ ["eff"]) d) :
    d = "energy" ∨ d = "cs1" ∨ d = "eff" := by
  induction h with
  | root h _ => simp at h; rcases h with h | h <;> simp [h]
  | dep _ hp he hb ih =>
    rcases ih with rfl | rfl | rfl
    · have hp' : exEnergy = _ := Option.some.inj hp
      subst hp'
      simp only [exEnergy, List.mem_singleton] at he
      exact absurd he hb
    · have hp' : exSignal = _ := Option.some.inj hp
      subst hp'
      simp only [exSignal, List.mem_singleton] at he
      exact .inl he
    · have hp' : exSignal = _ := Option.some.inj hp
      subst hp'
      simp only [exSignal, List.mem_singleton] at he
      exact .inl he

theorem exReg {d : String} {p : Plugin} (h : Reach exArgs.registry "batch_size" (["cs1"] ++ ["eff"]) d)
    (hp : exArgs.registry.get? d = some p) :
    (d = "energy" ∧ p = exEnergy) ∨ ((d = "cs1" ∨ d = "eff") ∧ p = exSignal) := by
  rcases exReach h with rfl | rfl | rfl
  · exact .inl ⟨rfl, (Option.some.inj hp).symm⟩
  · exact .inr ⟨.inl rfl, (Option.some.inj hp).symm⟩
  · exact .inr ⟨.inr rfl, (Option.some.inj hp).symm⟩

theorem exProper : exSetup.Proper (.irreg1 [0, 1, 2]) exParts where
  aliases := ⟨by simp [exSetup, PyDict.keys], by simp [exSetup, PyDict.keys], by simp [exSetup]⟩
  bins_eq := fun _ _ => rfl
  ascending := by simp [Ascending]
  dims := rfl
  no_eff := by simp [exSetup]
  no_batch := by simp [exSetup]
  provides := by
    intro a ha d p hd hp
    have : a = exArgs := by simpa [exParts] using ha
    subst this
    rcases exReg hd hp with ⟨rfl, rfl⟩ | ⟨h | h, rfl⟩
    · exact ⟨by decide, by decide, by decide, by decide, rfl⟩
    · subst h; exact ⟨by decide, by decide, by decide, by decide, rfl⟩
    · subst h; exact ⟨by decide, by decide, by decide, by decide, rfl⟩
  sole := by
    intro a ha d p d' hd hp hp' hd'
    have : a = exArgs := by simpa [exParts] using ha
    subst this
    rcases exReg hd hp with ⟨rfl, rfl⟩ | ⟨h, rfl⟩
    · simp only [exEnergy, List.mem_singleton] at hp'
      subst hp'; rfl
    · simp only [exSignal, List.mem_cons, List.not_mem_nil, or_false] at hp'
      rcases hp' with rfl | rfl <;> rfl
  returns := fun _ _ _ p _ _ _ k _ _ => ⟨k + 1, _, rfl, by simp, by simp⟩
  tables := by
    intro n d m h
    simp only [exParts, List.mem_cons, List.not_mem_nil, or_false, reduceCtorEq, false_or, Part.fixed.injEq] at h
    rw [h.2.1]; rfl

theorem exBuild : ∃ st g', exSetup.build exParts (⟨[], []⟩, {}) = ((st, g'), .ok ()) := by
  have h1 : (regStep exSetup.llh exSetup.binsOn exSetup.al exSetup.wrap (⟨[], []⟩, {}) (exSetup.reg (.sim exArgs))).2 = .ok () := by
    rfl
  have hk : "ac" ∉ (regStep exSetup.llh exSetup.binsOn exSetup.al exSetup.wrap (⟨[], []⟩, {})
      (exSetup.reg (.sim exArgs))).1.1.components.keys := by
    have : (regStep exSetup.llh exSetup.binsOn exSetup.al exSetup.wrap (⟨[], []⟩, {})
      (exSetup.reg (.sim exArgs))).1.1.components.keys = ["er"] := rfl
    rw [this]; decide
  unfold exParts Setup.build
  cases h : regStep exSetup.llh exSetup.binsOn exSetup.al exSetup.wrap (⟨[], []⟩, {}) (exSetup.reg (.sim exArgs)) with
  | mk sg r =>
    rw [h] at h1 hk
    cases h1
    obtain ⟨h0, e1, _⟩ := content_spec ⟨exSetup.cfg "ac", [[1 / 2, 3 / 2]], List.replicate 2 1, 1, 2⟩ exProper.ascending rfl
    simp only at e1
    simp only [Setup.build, Setup.reg, regStep, fixedDeduce, e1, bind, Except.bind, pure, Except.pure, Except.map]
    have hk' : sg.1.components.has "ac" = false := by
      rw [Bool.eq_false_iff]
      exact fun hh => hk ((PyDict.has_iff _ _).1 hh)
    simp only [register, hk']
    exact ⟨_, _, rfl⟩

theorem exVal {q : PyDict String ℝ} {needed : String → Prop} {val : String → PVal} {ord : List Plugin} {k k' : Nat}
    (h : Evaluates (exSetup.sem q) needed val ord k k') :
    ∀ p ∈ ord, ∀ d ∈ p.provides, needed d → val d = .col [1 / 2, 3 / 2] := by
  induction h with
  | nil => simp
  | cons h1 h2 _ ih =>
    intro p hp d hd hn
    rcases List.mem_cons.1 hp with rfl | hp
    · obtain ⟨i, hi⟩ := List.mem_iff_getElem?.1 hd
      have := h2 i d hi hn
      simp only [exSetup, Except.ok.injEq, Prod.mk.injEq] at h1
      rw [← h1.2, List.getElem?_map, hi] at this
      exact (Option.some.inj this).symm
    · exact ih p hp d hd hn

theorem exDraws {order : String → List Plugin} (ht : Topological exArgs.registry (["cs1"] ++ ["eff"]) (order "er"))
    {batch : Int} {k k' : Nat} {ss : List (Sample ℝ)}
    (h : Draws exSetup order batch [("ac_rate", 1), ("er_rate", 3)] exParts k ss k') :
    ss = [⟨exSetup.cfg "er", [[1 / 2, 3 / 2]], [1 / 2, 3 / 2], 3, batch⟩,
      ⟨exSetup.cfg "ac", [[1 / 2, 3 / 2]], List.replicate 2 1, 1, 2⟩] := by
  unfold exParts at h
  cases h with
  | @sim _ _ _ _ _ _ val cols eff rate h1 h2 h3 h4 h5 h6 =>
    have hr : ∀ d ∈ ["cs1", "eff"], Reach exArgs.registry "batch_size" (["cs1"] ++ ["eff"]) d := by
      intro d hd
      refine .root hd ?_
      rintro rfl
      exact absurd hd (by decide)
    have hs : exSignal ∈ order "er" := (ht.all _).2 ⟨"eff", hr _ (by simp), rfl⟩
    have e1 : val "cs1" = _ := exVal h2 exSignal hs "cs1" (by decide) (hr _ (by simp))
    have e2 : val "eff" = _ := exVal h2 exSignal hs "eff" (by decide) (hr _ (by simp))
    rw [e2] at h4
    cases h4
    have hcols : cols = [[1 / 2, 3 / 2]] := by
      simp only [exSetup, List.map_cons, List.map_nil, e1] at h3
      match cols, h3 with
      | [c], h3 => simp only [List.map_cons, List.map_nil, List.cons.injEq, PVal.col.injEq, and_true] at h3; rw [← h3]
    have hrate : rate = 3 := (Option.some.inj h5).symm
    cases h6 with
    | fixed g1 g2 =>
      have hrate' : _ = _ := (Option.some.inj g1).symm
      cases g2
      subst hcols hrate hrate'
      rfl

theorem exIn (v : ℝ) (j : Nat) (hj : j < 2) :
    EventIn (.irreg1 [0, 1, 2]) 0 j [some v] ↔ (j : ℝ) < v ∧ v ≤ j + 1 := by
  match j, hj with
  | 0, _ => simp [EventIn, InUpper]
  | 1, _ => simp [EventIn, InUpper]; norm_num

theorem exBins : binList (.irreg1 ([0, 1, 2] : List ℝ)) = [(0, 0), (0, 1)] := rfl

theorem exContent1 (batch : ℝ) :
    let s : Sample ℝ := ⟨exSetup.cfg "er", [[1 / 2, 3 / 2]], [1 / 2, 3 / 2], 3, batch⟩
    s.Normalisable ∧ s.expected (0, 0) = 3 / 4 ∧ s.expected (0, 1) = 9 / 4 := by
  intro s
  have c0 : s.content (0, 0) = 1 / 2 := by
    simp only [s, Sample.content, exSetup, eventRows, Hist.weightOf]
    simp [List.filter_cons, exIn]
    norm_num
  have c1 : s.content (0, 1) = 3 / 2 := by
    simp only [s, Sample.content, exSetup, eventRows, Hist.weightOf]
    simp [List.filter_cons, exIn]
    norm_num
  have hn : s.norm = 2 := by
    have : s.norm = ((binList s.cfg.bins).map s.content).sum := rfl
    rw [this]
    change (List.map s.content [(0, 0), (0, 1)]).sum = 2
    simp [c0, c1]
    norm_num
  refine ⟨⟨.inl rfl, by rw [hn]; norm_num⟩, ?_, ?_⟩
  · unfold Sample.expected; rw [hn, c0]; simp only [s]; norm_num
  · unfold Sample.expected; rw [hn, c1]; simp only [s]; norm_num

theorem exContent2 :
    let s : Sample ℝ := ⟨exSetup.cfg "ac", [[1 / 2, 3 / 2]], List.replicate 2 1, 1, 2⟩
    s.Normalisable ∧ s.expected (0, 0) = 1 / 2 ∧ s.expected (0, 1) = 1 / 2 := by
  intro s
  have c0 : s.content (0, 0) = 1 := by
    simp only [s, Sample.content, exSetup, eventRows, Hist.weightOf]
    simp [List.filter_cons, exIn, List.replicate]
    norm_num
  have c1 : s.content (0, 1) = 1 := by
    simp only [s, Sample.content, exSetup, eventRows, Hist.weightOf]
    simp [List.filter_cons, exIn, List.replicate]
    norm_num
  have hn : s.norm = 2 := by
    have : s.norm = ((binList s.cfg.bins).map s.content).sum := rfl
    rw [this]
    change (List.map s.content [(0, 0), (0, 1)]).sum = 2
    simp [c0, c1]
    norm_num
  refine ⟨⟨.inl rfl, by rw [hn]; norm_num⟩, ?_, ?_⟩
  · unfold Sample.expected; rw [hn, c0]; simp only [s]; norm_num
  · unfold Sample.expected; rw [hn, c1]; simp only [s]; norm_num

/-- Non-vacuity of C79: the hypotheses are met, with one data event in each of two bins expecting 1.25 and 2.75. -/
example (eq : Equi ℝ) : ∃ b st g', init eq { binsType := "irreg", binsOn := .str "cs1", bins := .list [.edges [0, 1, 2]], clip := some (0, 2) }
      (fun _ => .ok [[some (1 / 2)], [some (3 / 2)], [some 7]]) = .ok b ∧ exSetup.Proper b.bins exParts ∧
    exSetup.build exParts (⟨[], []⟩, {}) = ((st, g'), .ok ()) ∧
    ∀ key batch, ∃ key', getLogLikelihood exSetup.al b.dataHist st key batch (floats [("amount", 3), ("ac_rate", 1)]) =
      .ok (key', .fin (Real.log (5 / 4) + Real.log (11 / 4) - 4)) := by
  obtain ⟨st, g', hb⟩ := exBuild
  obtain ⟨b, hinit, hbins, hdata⟩ : ∃ b, init eq { binsType := "irreg", binsOn := .str "cs1", bins := .list [.edges [0, 1, 2]], clip := some (0, 2) }
      (fun _ => .ok [[some (1 / 2)], [some (3 / 2)], [some 7]]) = .ok b ∧ b.bins = .irreg1 [0, 1, 2] ∧
      b.data = [[some (1 / 2)], [some (3 / 2)]] := by
    refine ⟨_, rfl, rfl, ?_⟩
    simp only [List.filter, inside, entry]
    norm_num
  have hP : exSetup.Proper b.bins exParts := by rw [hbins]; exact exProper
  refine ⟨b, st, g', hinit, hP, hb, ?_⟩
  intro key batch
  obtain ⟨order, h1, h2⟩ := C79_log_likelihood eq _ _ b hinit exSetup exParts hP _ _ st hb
  obtain ⟨ss, key', h3, h4⟩ := h2 key batch [("amount", 3), ("ac_rate", 1)] (by
    intro p hp
    have hq : replaceAlias exSetup.al [("amount", (3 : ℝ)), ("ac_rate", 1)] = [("ac_rate", 1), ("er_rate", 3)] := rfl
    rw [hq]
    simp only [exParts, List.mem_cons, List.not_mem_nil, or_false] at hp
    rcases hp with rfl | rfl <;> simp [Part.name, PyDict.keys, exArgs])
  have h5 := exDraws (h1 exArgs (by simp [exParts])) h3
  obtain ⟨n1, a0, a1⟩ := exContent1 batch
  obtain ⟨n2, b0, b1⟩ := exContent2
  have m0 : expectedIn ss (0, 0) = 5 / 4 := by rw [h5]; simp only [expectedIn, List.map_cons, List.map_nil, a0, b0]; norm_num
  have m1 : expectedIn ss (0, 1) = 11 / 4 := by rw [h5]; simp only [expectedIn, List.map_cons, List.map_nil, a1, b1]; norm_num
  have hn : ∀ s ∈ ss, s.Normalisable := by
    rw [h5]
    intro s hs
    simp only [List.mem_cons, List.not_mem_nil, or_false] at hs
    rcases hs with rfl | rfl
    · exact n1
    · exact n2
  refine ⟨key', ?_⟩
  rw [(h4 hn).1 (by
    rw [hbins, exBins]
    intro c hc
    simp only [List.mem_cons, List.not_mem_nil, or_false] at hc
    rcases hc with rfl | rfl
    · rw [m0]; norm_num
    · rw [m1]; norm_num)]
  congr 3
  unfold binnedLogL
  rw [hbins, exBins, hdata]
  have k0 : countIn (.irreg1 [0, 1, 2]) [[some (1 / 2)], [some (3 / 2)]] (0, 0) = 1 := by
    simp [countIn, exIn, List.countP_cons]; norm_num
  have k1 : countIn (.irreg1 [0, 1, 2]) [[some (1 / 2)], [some (3 / 2)]] (0, 1) = 1 := by
    simp [countIn, exIn, List.countP_cons]; norm_num
  simp only [List.map_cons, List.map_nil, k0, k1, m0, m1, List.sum_cons, List.sum_nil]
  push_cast
  ring

end Verif.Llh
