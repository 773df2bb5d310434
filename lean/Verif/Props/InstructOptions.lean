/-
C127: every option a shipped instruction sets reaches a plugin that its likelihoods use.
-/
import Verif.Props.Shipped

namespace Verif.Shipped
open Verif Comp

/-- An option reaches a likelihood: a plugin that takes it provides something the binned quantities or the efficiency of one of its
components depend on. -/
def OptionReaches (L : LlhData) (opt : String) : Prop :=
  ∃ comp cls ps d p c, (comp, cls) ∈ L.comps ∧ PyDict.get? components cls = some ps ∧ Reach (registry ps) "batch_size" (L.binsOn ++ ["eff"]) d ∧
    (registry ps).get? d = some p ∧ c ∈ p.configs ∧ c.name = opt

/-- The options of the plugins of a likelihood, computed. -/
def optionsOf (L : LlhData) : List String :=
  L.comps.flatMap (fun d => match PyDict.get? components d.2 with
    | none => []
    | some ps => match deduceDeps (registry ps) "batch_size" 60 (L.binsOn ++ ["eff"]) [] with
      | .ok deps => (worksheet deps).flatMap (fun p => p.configs.map Cfg.name)
      | .error _ => [])

theorem optionsOf_reaches (L : LlhData) (opt : String) (h : opt ∈ optionsOf L) : OptionReaches L opt := by
  unfold optionsOf at h
  obtain ⟨⟨comp, cls⟩, hm, h⟩ := List.mem_flatMap.1 h
  cases hc : PyDict.get? components cls with
  | none => simp [hc] at h
  | some ps =>
    simp only [hc] at h
    split at h
    · rename_i deps hd
      obtain ⟨p, hp, h⟩ := List.mem_flatMap.1 h
      obtain ⟨c, hc', rfl⟩ := List.mem_map.1 h
      obtain ⟨order, ho⟩ := well_formed (cls, ps) (PyDict.mem_of_get? _ hc)
      obtain ⟨_, _, hmem, _⟩ := C10_topological_order _ _ _ _ _ hd ((wellFormed_spec ho).consistent _).names_distinct
      obtain ⟨d, hr, hg⟩ := (hmem p).1 hp
      exact ⟨comp, cls, ps, d, p, c, hm, hc, hr, hg, hc', rfl⟩
    · simp at h

theorem options_checked : ∀ i ∈ instructs, ∀ o ∈ (PyDict.get? instructOptions i.name).getD [], (i.name, o.1) ≠ ("literature_lyqy.json", "field") →
    (i.name, o.1) ≠ ("neutron_low.json", "s1_correction") →
    (o.2 = [] → ∃ L ∈ i.llhs, o.1 ∈ optionsOf L) ∧ ∀ n ∈ o.2, ∃ L ∈ i.llhs, L.name = n ∧ o.1 ∈ optionsOf L := by
  decide +kernel

/-- **C127 (options reach a plugin, part).** An option that a shipped instruction sets for all likelihoods reaches one of them, and an option
that it sets for some likelihoods names likelihoods of the instruction and reaches each of them.  Missing: the option `field` of
`literature_lyqy.json`, see `C127_field_ignored`, and `s1_correction` of `neutron_low.json`, see `C127_correction_unused`. -/
theorem C127_options_reach_partial (i : InstructData) (hi : i ∈ instructs) (opts : PyDict String (List String))
    (ho : PyDict.get? instructOptions i.name = some opts) (opt : String) (names : List String) (hm : (opt, names) ∈ opts)
    (hf : ¬ (i.name = "literature_lyqy.json" ∧ opt = "field")) (hs : ¬ (i.name = "neutron_low.json" ∧ opt = "s1_correction")) :
    (names = [] → ∃ L ∈ i.llhs, OptionReaches L opt) ∧ ∀ n ∈ names, ∃ L ∈ i.llhs, L.name = n ∧ OptionReaches L opt := by
  obtain ⟨h1, h2⟩ := options_checked i hi (opt, names) (by rw [ho]; exact hm) (by
    intro h
    rw [Prod.mk.injEq] at h
    exact hf h) (by
    intro h
    rw [Prod.mk.injEq] at h
    exact hs h)
  constructor
  · intro hn
    obtain ⟨L, hL, h⟩ := h1 hn
    exact ⟨L, hL, optionsOf_reaches L opt h⟩
  · intro n hn
    obtain ⟨L, hL, e, h⟩ := h2 n hn
    exact ⟨L, hL, e, optionsOf_reaches L opt h⟩

/-- The only component of the neutron likelihood does not compute `cs1`. -/
theorem neutron_options : ∃ deps, deduceDeps (registry ((PyDict.get? components "NR").getD [])) "batch_size" 60 ["num_s1_phd", "cs2", "eff"] [] = .ok deps ∧
    ∀ p ∈ worksheet deps, ∀ c ∈ p.configs, c.name ≠ "s1_correction" := by
  have h : (match deduceDeps (registry ((PyDict.get? components "NR").getD [])) "batch_size" 60 ["num_s1_phd", "cs2", "eff"] [] with
    | .ok deps => (worksheet deps).all (fun p => p.configs.all (fun c => decide (c.name ≠ "s1_correction")))
    | .error _ => false) = true := by decide +kernel
  split at h
  · rename_i deps hd
    refine ⟨deps, hd, ?_⟩
    intro p hp c hc
    have := List.all_eq_true.1 (List.all_eq_true.1 h p hp) c hc
    simpa using this
  · simp at h

/-- **C127 (violated: `s1_correction`).** `neutron_low.json` sets the map `s1_correction`; the component takes it (for `cs1`), but the likelihood is
binned in `num_s1_phd` and `cs2`, which do not depend on it: the map does not matter for the fit. -/
theorem C127_correction_unused : ("s1_correction", []) ∈ (PyDict.get? instructOptions "neutron_low.json").getD [] ∧
    (∀ L ∈ inst_neutron_low.llhs, ¬ OptionReaches L "s1_correction") ∧
    ∀ L ∈ inst_neutron_low.llhs, OptionReaches { L with binsOn := ["cs1", "cs2"] } "s1_correction" := by
  refine ⟨by decide +kernel, ?_, ?_⟩
  · intro L hL
    simp only [inst_neutron_low, List.mem_cons, List.not_mem_nil, or_false] at hL
    subst hL
    rintro ⟨comp, cls, ps, d, p, c, hm, hc, hr, hg, hcm, hn⟩
    simp only [List.mem_cons, List.not_mem_nil, or_false, Prod.mk.injEq] at hm
    obtain ⟨rfl, rfl⟩ := hm
    obtain ⟨deps, hd, hno⟩ := neutron_options
    rw [hc] at hd
    obtain ⟨order, ho⟩ := well_formed ("NR", ps) (PyDict.mem_of_get? _ hc)
    obtain ⟨_, _, hmem, _⟩ := C10_topological_order _ _ _ _ _ hd ((wellFormed_spec ho).consistent _).names_distinct
    exact hno p ((hmem p).2 ⟨d, hr, hg⟩) c hcm hn
  · intro L hL
    simp only [inst_neutron_low, List.mem_cons, List.not_mem_nil, or_false] at hL
    subst hL
    exact optionsOf_reaches _ _ (by decide +kernel)

/-- The registered plugins of shipped components. -/
theorem no_field : ∀ c ∈ components, ∀ e ∈ registry c.2, ∀ cfg ∈ e.2.configs, cfg.name ≠ "field" := by decide +kernel

/-- **C127 (violated: `field`).** `literature_lyqy.json` sets an option `field` for its four likelihoods, but no plugin of any shipped component
takes it: the field is a parameter of that name. -/
theorem C127_field_ignored : ("field", ["ly_lux_2016", "qy_lenardo_2019", "ly_lux_2022", "qy_lux_2022"]) ∈
      (PyDict.get? instructOptions "literature_lyqy.json").getD [] ∧
    (∀ L : LlhData, ¬ OptionReaches L "field") ∧
    ∀ L ∈ inst_literature_lyqy.llhs, ∃ comp ∈ L.comps, ∃ n, compNeeded [] L.name L.binsOn comp.1 comp.2 = .ok n ∧ "field" ∈ n := by
  refine ⟨by decide +kernel, ?_, ?_⟩
  · rintro L ⟨comp, cls, ps, d, p, c, _, hc, _, hg, hcm, hn⟩
    exact no_field (cls, ps) (PyDict.mem_of_get? _ hc) (d, p) (PyDict.mem_of_get? _ hg) c hcm hn
  · simp only [inst_literature_lyqy, List.mem_cons, List.not_mem_nil, or_false, forall_eq_or_imp, forall_eq, exists_eq_left]
    refine ⟨⟨_, rfl, ?_⟩, ⟨_, rfl, ?_⟩, ⟨_, rfl, ?_⟩, ⟨_, rfl, ?_⟩⟩ <;> decide +kernel

/-- **C127 (sigma maps).** The maps that the parameters of C73 come from are exactly the options of the instruction that name a sigma map. -/
theorem C127_sigma_options : ∀ i ∈ instructs, i.sigmas.keys =
    ((PyDict.get? instructOptions i.name).getD []).keys.filter (fun o => sigmaMaps.any (fun m => m.name = o)) := by
  decide +kernel

/-- **C127 (all instructions).** The options of every shipped instruction are known. -/
theorem C127_all : ∀ i ∈ instructs, ∃ opts, PyDict.get? instructOptions i.name = some opts ∧ opts ≠ [] := by
  simp only [instructs, List.mem_cons, List.not_mem_nil, or_false, forall_eq_or_imp, forall_eq]
  exact ⟨⟨_, rfl, by decide⟩, ⟨_, rfl, by decide⟩, ⟨_, rfl, by decide⟩, ⟨_, rfl, by decide⟩⟩

/-- Non-vacuity: an option that reaches a likelihood. -/
example : OptionReaches ⟨"ar37_llh", [("ar37_er", "ERPeak")], [], [], ["cs1", "cs2"]⟩ "elife" :=
  optionsOf_reaches _ _ (by decide +kernel)

end Verif.Shipped
