/-
Property theorems C62, C73 and C74 about the components, instructions and parameter files shipped with the package.
-/
import Verif.Lemmas.ShippedData
import Verif.Props.Context

namespace Verif.Shipped
open Verif Comp Ctx

/-! ### C62: shipped components are well formed -/

/-- **C62.** The constructor of no shipped component raises, and each offers the efficiency column. -/
theorem C62_registration : ∀ c ∈ components,
    (registerAll [] c.2).2 = .ok () ∧ "eff" ∈ (registry c.2).keys ∧ "batch_size" ∉ (registry c.2).keys := by
  decide +kernel

/-- **C62.** Any data offered by a shipped component can be requested, in any number, order and repetition: resolution succeeds
in a recursion depth of 60, and the generated function runs and computes the data flow of the registered plugins, each called
once, whatever functions of the declared arities the plugins are. -/
theorem C62_any_request (c : String × List Plugin) (hc : c ∈ components) (names : List String)
    (hn : ∀ d ∈ names, d = "batch_size" ∨ d ∈ (registry c.2).keys) (fuel : Nat) (hf : 60 ≤ fuel) :
    ∃ deps, deduceDeps (registry c.2) "batch_size" fuel names [] = .ok deps ∧
      ((worksheet deps).map Plugin.name).Nodup ∧
      (∀ p, p ∈ worksheet deps ↔ ∃ d, Reach (registry c.2) "batch_size" names d ∧ (registry c.2).get? d = some p) ∧
      ∀ {K V : Type} (sem : Plugin → K → List V → Res (K × List V)),
        (∀ p ∈ worksheet deps, ∀ k args, args.length = p.dependsOn.length →
          ∃ k' outs, sem p k args = .ok (k', outs) ∧ outs.length = p.provides.length) →
        ∀ (compName llhName funcName : String) (key : K) (input : V), ∃ (key' : K) (val : String → V),
          (genCode compName llhName (worksheet deps) names funcName "batch_size").run namespace_ sem key input
            = .ok (key', names.map val) ∧
          val "batch_size" = input ∧
          Evaluates sem (Reach (registry c.2) "batch_size" names) val (worksheet deps) key key' := by
  obtain ⟨order, ho⟩ := well_formed c hc
  have hw := wellFormed_spec ho
  have hlen := lengths c hc
  obtain ⟨deps, hd⟩ := C12_acyclic_complete_succeeds (registry c.2) "batch_size" fuel names
    (fun d hd => hw.reach hn hd) (fun d _ => hw.acyclic d) (by omega)
  have hcons := hw.consistent names
  obtain ⟨_, h2, h3, _⟩ := C10_topological_order _ _ _ _ _ hd hcons.names_distinct
  refine ⟨deps, hd, h2, h3, ?_⟩
  intro K V sem hsem compName llhName funcName key input
  refine C11_generated_code_computes_data_flow _ _ _ _ _ hd hcons namespace_ sem ?_ hsem compName llhName funcName key input
  intro p hp
  obtain ⟨d, _, hpd⟩ := (h3 p).1 hp
  exact hw.named d p hpd

/-- **C62.** Anything else raises ValueError. -/
theorem C62_unknown_request (c : String × List Plugin) (names : List String) (d : String) (hd : d ∈ names)
    (hne : d ≠ "batch_size") (hm : d ∉ (registry c.2).keys) (fuel : Nat) :
    deduceDeps (registry c.2) "batch_size" (fuel + 1) names [] = .error .valueError :=
  C12_missing_request_valueError _ _ _ d hd hne
    ((PyDict.get?_eq_none_iff _ _).2 hm) fuel

/-- Non-vacuity: a request with repetitions, and its plugins in order. -/
example : (("ERPeak", reg_ERPeak) ∈ components ∧ ∀ d ∈ ["cs1", "rec_r", "cs1", "batch_size"],
    d = "batch_size" ∨ d ∈ (registry reg_ERPeak).keys) := by
  refine ⟨by simp [components], by decide +kernel⟩

example : ((deduceDeps (registry reg_BandEnergiesYields) "batch_size" 60 ["charge_yield", "eff"] []).map
    (fun deps => (worksheet deps).map Plugin.name)) =
      .ok ["UniformEnergiesSpectra", "PositionSpectra", "EField", "ThomasImelBox", "BandEnergiesClipEff", "QyNR"] := by
  decide +kernel

/-! ### C73: shipped instructions and parameter files fit together -/

section
variable {K : Type}

/-- **C73 (what a component needs).** The parameters a shipped component needs, as meant in C73: its rate; for simulated ones, the
parameters of the plugins that the binned quantities and the efficiency depend on, and those named by the sigma maps of these
plugins as configured for the likelihood. -/
theorem C73_component_needs (sigmas : PyDict String Conf.CVal) (llh : String) (binsOn : List String) (comp cls : String)
    (needed : List String) (h : compNeeded sigmas llh binsOn comp cls = .ok needed) (x : String) :
    x ∈ needed ↔ x = comp ++ "_rate" ∨
      ∃ ps d p, PyDict.get? components cls = some ps ∧ Reach (registry ps) "batch_size" (binsOn ++ ["eff"]) d ∧
        (registry ps).get? d = some p ∧ (x ∈ p.parameters ∨ ∃ c ∈ p.configs, SigmaParameter sigmas llh c.name x) := by
  unfold compNeeded at h
  cases hc : PyDict.get? components cls with
  | none =>
    rw [hc] at h
    simp only at h
    split at h
    · cases h; simp
    · cases h
  | some ps =>
    rw [hc] at h
    simp only at h
    split at h
    · cases h
    rename_i c g hd
    cases h
    have hmem : (cls, ps) ∈ components := PyDict.mem_of_get? _ hc
    obtain ⟨order, ho⟩ := well_formed (cls, ps) hmem
    have hw := wellFormed_spec ho
    rw [C13_needed_parameters _ _ _ _ _ hd (hw.consistent _).names_distinct x]
    have hne : comp ++ "_rate" ≠ "" := by
      intro he
      have := congrArg String.length he
      rw [String.length_append] at this
      have h5 : "_rate".length = 5 := by decide
      simp [h5] at this
    simp only [ne_eq, hne, not_false_eq_true, true_and]
    apply or_congr Iff.rfl
    constructor
    · rintro ⟨d, p, h1, h2, h3⟩
      refine ⟨ps, d, p, rfl, reach_congr (fun d hd => (mem_outNames _ d).1 hd) h1, h2, h3.imp id ?_⟩
      rintro ⟨c, hc, h⟩
      exact ⟨c, hc, (required_iff _ _ _ _).1 h⟩
    · rintro ⟨ps', d, p, h0, h1, h2, h3⟩
      cases h0
      refine ⟨d, p, reach_congr (fun d hd => (mem_outNames _ d).2 hd) h1, h2, h3.imp id ?_⟩
      rintro ⟨c, hc, h⟩
      exact ⟨c, hc, (required_iff _ _ _ _).2 h⟩

/-- Non-vacuity of C73 (what a component needs). -/
example : ∃ n, compNeeded inst_neutron_low.sigmas "neutron_llh" ["num_s1_phd", "cs2"] "neutron_nr" "NR" = .ok n ∧
    "neutron_nr_rate" ∈ n ∧ "s2_cut_acc_sigma" ∈ n ∧ "g2" ∈ n := by
  refine ⟨_, rfl, ?_⟩
  decide +kernel

/-- **C73.** A context made from a shipped instruction file and its parameter file, with whatever priors, draws, data and maps,
passes the check of parameters, and the parameters it manages are exactly those its components need: no simulation of it can
lack a parameter. -/
theorem C73_parameters_match (i : InstructData) (hi : i ∈ instructs) (sig : Parameter.Solver) (draw : String → ℝ)
    (pc : Parameter.Config) (hpc : pc.keys = i.parKeys) (ls : PyDict String (LInstr K))
    (hls : List.Forall₂ (LlhFrom i) i.llhs ls) (c : Ctx K) (h : mk sig draw pc ls = .ok c) :
    sanityCheck c = .ok () ∧ ∀ x, x ∈ c.needed ↔ x ∈ c.pm.vals.keys := by
  have hf : ∀ n l o, (n, l) ∈ ls → l.make = .ok o → Fresh o := by
    intro n l o hm ho
    obtain ⟨L, _, hL⟩ : ∃ L ∈ i.llhs, LlhFrom i L (n, l) := by
      clear h hpc
      generalize i.llhs = Ls at hls
      induction hls with
      | nil => simp at hm
      | cons h1 _ ih =>
        rcases List.mem_cons.1 hm with rfl | hm
        · exact ⟨_, List.mem_cons_self, h1⟩
        · obtain ⟨L, h2, h3⟩ := ih hm
          exact ⟨L, List.mem_cons_of_mem _ h2, h3⟩
    obtain ⟨o', h1, h2, _⟩ := hL.made
    simp only at h1
    rw [h1] at ho
    cases ho
    exact h2
  obtain ⟨_, hr, hneed⟩ := C42_needed_parameters sig draw pc ls c h hf
  obtain ⟨pc', needed, pm, h1, _, h3⟩ := mk_ok h
  obtain ⟨_, g2, _, _⟩ := registerAll_ok hf h3
  have hkeys : c.pm.vals.keys = pc'.keys := by
    rw [hr.inv.keys, g2]
  obtain ⟨u1, _, u3, u4⟩ := C41_others_unchanged _ _ _ _ h1
  have hprov : ∀ x, x ∈ pc'.keys ↔ ((x ∈ targets i ∨ x ∈ i.parKeys) ∧ (x ∈ sources i → x ∈ rates i)) := by
    intro x
    rw [← isTarget_iff hls, ← isSource_iff hls, ← isRate_iff hls, ← hpc]
    constructor
    · intro hx
      refine ⟨(u4 x hx).symm, fun hs => ?_⟩
      by_contra hrate
      exact C41_sources_dropped _ _ _ _ h1 x hs hrate hx
    · rintro ⟨h4, h5⟩
      by_cases ht : IsTarget (copyInstr ls) x
      · exact u3 x ht h5
      · rw [PyDict.mem_keys_iff, u1 x ht h5, ← PyDict.mem_keys_iff]
        exact h4.resolve_left ht
  have hall : ∀ x, x ∈ c.needed ↔ x ∈ c.pm.vals.keys := by
    intro x
    rw [hneed, isTarget_iff hls, needed_iff hls, hkeys, hprov]
    by_cases hx : x ∈ targets i ++ neededNames i ++ i.parKeys
    · exact names_match i hi x hx
    · simp only [List.mem_append, not_or] at hx
      simp [hx.1.1, hx.1.2, hx.2]
  refine ⟨?_, hall⟩
  unfold sanityCheck
  rw [if_pos (fun p hp => (hall p).2 hp)]

end

/-- Non-vacuity of C73: a context from the neutron instruction with every parameter fixed at one. -/
noncomputable def exConfig : Parameter.Config := inst_neutron_low.parKeys.map (fun k => (k, ⟨.fixed 1, none, none⟩))

def exBuild (needed : List String) : CompBuild Unit where
  comp := .other needed
  simulate := fun k _ _ => .ok (k, [])

noncomputable def exInstr : PyDict String (LInstr Unit) :=
  [("neutron_llh",
    { make := .ok (.binned [] [[1]] {}), copy := some [("neutron_nr_rate", "nr_rate")],
      comps := [("neutron_nr",
        (compNeeded inst_neutron_low.sigmas "neutron_llh" ["num_s1_phd", "cs2"] "neutron_nr" "NR").map exBuild)] })]

def Succeeds {α : Type} (r : Res α) : Bool :=
  match r with
  | .ok _ => true
  | .error _ => false

example : inst_neutron_low ∈ instructs ∧ exConfig.keys = inst_neutron_low.parKeys ∧
    List.Forall₂ (LlhFrom inst_neutron_low) inst_neutron_low.llhs exInstr ∧
    ∃ c, mk (fun _ => none) (fun _ => 0) exConfig exInstr = .ok c := by
  refine ⟨by simp [instructs], by simp [exConfig, PyDict.keys, Function.comp_def], ?_, ?_⟩
  · refine .cons ⟨rfl, ⟨_, rfl, ⟨⟨by decide, by decide, by decide⟩, rfl, rfl⟩, rfl⟩, rfl, .cons ⟨rfl, ?_⟩ .nil⟩ .nil
    have hs : Succeeds (compNeeded inst_neutron_low.sigmas "neutron_llh" ["num_s1_phd", "cs2"] "neutron_nr" "NR") = true := by
      decide +kernel
    simp only
    cases hn : compNeeded inst_neutron_low.sigmas "neutron_llh" ["num_s1_phd", "cs2"] "neutron_nr" "NR" with
    | error e => rw [hn] at hs; cases hs
    | ok n => exact ⟨exBuild n, rfl, rfl⟩
  · have hs : Succeeds (mk (fun _ => none) (fun _ => 0) exConfig exInstr) = true := by
      decide +kernel
    cases hm : mk (fun _ => none) (fun _ => 0) exConfig exInstr with
    | error e => rw [hm] at hs; cases hs
    | ok c => exact ⟨c, rfl⟩

end Verif.Shipped
