/-
Helper lemmas for C62 and C73: the checks of the shipped data.
-/
import Verif.Lemmas.Config
import Verif.Spec.Shipped
import Verif.Lemmas.Shipped
import Verif.Lemmas.ShippedOrder

namespace Verif.Shipped
open Verif Comp Ctx

theorem well_formed : ∀ c ∈ components, ∃ order, wellFormed (registry c.2) "batch_size" namespace_ order = true := by
  simp only [components, List.mem_cons, List.not_mem_nil, or_false, forall_eq_or_imp, forall_eq]
  exact ⟨⟨order_ERBand, by decide +kernel⟩, ⟨order_ERPeak, by decide +kernel⟩, ⟨order_ERBandNestV2, by decide +kernel⟩,
    ⟨order_ERPeakNestV2, by decide +kernel⟩, ⟨order_NR, by decide +kernel⟩, ⟨order_MonoEnergiesYields, by decide +kernel⟩,
    ⟨order_BandEnergiesYields, by decide +kernel⟩⟩

theorem lengths : ∀ c ∈ components, (registry c.2).keys.length + 1 ≤ 60 := by decide +kernel

/-- Names copied to, copied from, and rates, as lists. -/
def targets (i : InstructData) : List String := i.llhs.flatMap fun L => L.copies.map Prod.fst
def sources (i : InstructData) : List String := i.llhs.flatMap fun L => L.copies.map Prod.snd
def rates (i : InstructData) : List String := i.llhs.flatMap fun L => L.comps.map fun d => d.1 ++ "_rate"

theorem names_match : ∀ i ∈ instructs, ∀ x ∈ targets i ++ neededNames i ++ i.parKeys,
    ((x ∈ targets i ∨ x ∈ neededNames i) ↔ ((x ∈ targets i ∨ x ∈ i.parKeys) ∧ (x ∈ sources i → x ∈ rates i))) := by
  decide +kernel

section
variable {K : Type}

theorem isTarget_iff {i : InstructData} {ls : PyDict String (LInstr K)} (h : List.Forall₂ (LlhFrom i) i.llhs ls) (x : String) :
    IsTarget (copyInstr ls) x ↔ x ∈ targets i := by
  unfold IsTarget Copies copyInstr targets
  generalize i.llhs = Ls at h
  induction h with
  | nil => simp
  | cons h1 _ ih =>
    simp only [List.map_cons, List.mem_cons, exists_eq_or_imp, List.flatMap_cons, List.mem_append, exists_or, h1.copy,
      Option.some.injEq, exists_eq_left', ih]
    simp

theorem isSource_iff {i : InstructData} {ls : PyDict String (LInstr K)} (h : List.Forall₂ (LlhFrom i) i.llhs ls) (x : String) :
    IsSource (copyInstr ls) x ↔ x ∈ sources i := by
  unfold IsSource Copies copyInstr sources
  generalize i.llhs = Ls at h
  induction h with
  | nil => simp
  | cons h1 _ ih =>
    simp only [List.map_cons, List.mem_cons, exists_eq_or_imp, List.flatMap_cons, List.mem_append, exists_or, h1.copy,
      Option.some.injEq, exists_eq_left', ih]
    simp

theorem comps_keys {i : InstructData} {L : LlhData} {cs : PyDict String (Res (CompBuild K))} {ds : List (String × String)}
    (h : List.Forall₂ (CompFrom i L) ds cs) : cs.keys = ds.map Prod.fst := by
  induction h with
  | nil => rfl
  | cons h1 _ ih =>
    simp only [PyDict.keys, List.map_cons] at ih ⊢
    rw [ih, h1.1]

theorem isRate_iff {i : InstructData} {ls : PyDict String (LInstr K)} (h : List.Forall₂ (LlhFrom i) i.llhs ls) (x : String) :
    IsRate (copyInstr ls) x ↔ x ∈ rates i := by
  unfold IsRate copyInstr rates
  generalize i.llhs = Ls at h
  induction h with
  | nil => simp
  | cons h1 _ ih =>
    simp only [List.map_cons, List.mem_cons, exists_eq_or_imp, List.flatMap_cons, List.mem_append, ih, comps_keys h1.comps]
    simp [eq_comm]

theorem needed_iff {i : InstructData} {ls : PyDict String (LInstr K)} (h : List.Forall₂ (LlhFrom i) i.llhs ls) (x : String) :
    NeededByComponent ls x ↔ x ∈ neededNames i := by
  have hc : ∀ (L : LlhData) (ds : List (String × String)) (cs : PyDict String (Res (CompBuild K))),
      List.Forall₂ (CompFrom i L) ds cs →
      ((∃ cn b q, (cn, Except.ok b) ∈ cs ∧ q ∈ b.comp.needed ∧ x = Llh.callerName L.aliases q) ↔
        x ∈ ds.flatMap fun d =>
          match compNeeded i.sigmas L.name L.binsOn d.1 d.2 with
          | .error _ => []
          | .ok n => n.map (Llh.callerName L.aliases)) := by
    intro L ds cs hh
    induction hh with
    | nil => simp
    | cons h1 _ ih =>
      obtain ⟨_, b, hb, hn⟩ := h1
      rw [List.flatMap_cons, List.mem_append, ← ih, hn]
      simp only [List.mem_cons, List.mem_map]
      constructor
      · rintro ⟨cn, b', q, h2 | h2, h3, h4⟩
        · left
          rw [← h2] at hb
          cases hb
          exact ⟨q, h3, h4.symm⟩
        · exact Or.inr ⟨cn, b', q, h2, h3, h4⟩
      · rintro (⟨q, h3, h4⟩ | ⟨cn, b', q, h2, h3, h4⟩)
        · exact ⟨_, b, q, Or.inl (by rw [← hb]), h3, h4.symm⟩
        · exact ⟨cn, b', q, Or.inr h2, h3, h4⟩
  unfold NeededByComponent neededNames
  generalize i.llhs = Ls at h
  induction h with
  | nil => simp
  | @cons L e Ls' ls' h1 _ ih =>
    obtain ⟨o, ho1, _, ho3⟩ := h1.made
    rw [List.flatMap_cons, List.mem_append]
    refine Iff.trans ?_ (or_congr (hc L _ _ h1.comps) ih)
    constructor
    · rintro ⟨n, l, o', cn, b, q, h2, h3, h4, h5, h6⟩
      rcases List.mem_cons.1 h2 with h2 | h2
      · left
        subst h2
        rw [ho1] at h3
        cases h3
        exact ⟨cn, b, q, h4, h5, by rw [h6, ho3]⟩
      · exact Or.inr ⟨n, l, o', cn, b, q, h2, h3, h4, h5, h6⟩
    · rintro (⟨cn, b, q, h4, h5, h6⟩ | ⟨n, l, o', cn, b, q, h2, h3, h4, h5, h6⟩)
      · exact ⟨e.1, e.2, o, cn, b, q, List.mem_cons_self, ho1, h4, h5, by rw [h6, ho3]⟩
      · exact ⟨n, l, o', cn, b, q, List.mem_cons_of_mem _ h2, h3, h4, h5, h6⟩

end

theorem required_iff (sigmas : PyDict String Conf.CVal) (llh : String) (c : Cfg) (x : String) :
    required { data := sigmas } llh c = .ok (some x) ↔ SigmaParameter sigmas llh c.name x := by
  unfold required SigmaParameter
  have hinj : ∀ m ∈ sigmaMaps, ∀ m' ∈ sigmaMaps, m.name = m'.name → m = m' := by
    simp [sigmaMaps]
  have hdef : ∀ m ∈ sigmaMaps, ∃ a, m.default = some a := by simp [sigmaMaps]
  cases hf : sigmaMaps.find? (fun m => m.name = c.name) with
  | none =>
    rw [List.find?_eq_none] at hf
    simp only [Except.ok.injEq, reduceCtorEq, false_iff]
    rintro ⟨m, hm, hn, _⟩
    exact hf m hm (by simpa using hn)
  | some m =>
    have hm := List.mem_of_find?_eq_some hf
    have hn : m.name = c.name := by simpa using List.find?_some hf
    have hval : ∀ a, (Conf.getConfigs m none (some llh) { data := sigmas }).2 = .ok a ↔
        (Conf.valueFor { data := sigmas } c.name (some llh) = some a ∨ (sigmas.get? c.name = none ∧ m.default = some a)) := by
      intro a
      rw [Conf.getConfigs_eq, hn]
      simp only [Conf.valueFor]
      obtain ⟨b, hb⟩ := hdef m hm
      cases hg : sigmas.get? c.name with
      | none => simp [hb, Conf.getDefault]
      | some v =>
        cases v with
        | atom b => simp [Conf.pick]
        | dict d =>
          simp only [Conf.pick, Option.or_none, Option.bind_some]
          cases d.get? llh <;> simp
    have hreq : ∀ p, (Conf.requiredParameter m none (some llh) { data := sigmas }).2 = .ok p ↔
        ∃ a, Conf.namedParameter c.name a = p ∧
          (Conf.valueFor { data := sigmas } c.name (some llh) = some a ∨ (sigmas.get? c.name = none ∧ m.default = some a)) := by
      intro p
      rw [Conf.requiredParameter_ok_iff, hn]
      constructor
      · rintro ⟨a, h1, h2⟩; exact ⟨a, h2, (hval a).1 h1⟩
      · rintro ⟨a, h1, h2⟩; exact ⟨a, (hval a).2 h2, h1⟩
    simp only
    constructor
    · intro h
      refine ⟨m, hm, hn, (hreq _).1 ?_⟩
      cases hr : (Conf.requiredParameter m none (some llh) { data := sigmas }).2 with
      | error e => rw [hr] at h; cases h
      | ok p =>
        rw [hr] at h
        rcases p with _ | (s | s)
        · simp at h
        · simp only [Except.ok.injEq, Option.some.injEq] at h; rw [h]
        · simp at h
    · rintro ⟨m', hm', hn', a, h1, h2⟩
      have : m' = m := hinj m' hm' m hm (by rw [hn, hn'])
      subst this
      rw [(hreq _).2 ⟨a, h1, h2⟩]

theorem reach_congr {reg : Registry} {nodep : String} {l l' : List String} (h : ∀ d ∈ l, d ∈ l') {d : String}
    (hr : Reach reg nodep l d) : Reach reg nodep l' d := by
  induction hr with
  | root h1 h2 => exact .root (h _ h1) h2
  | dep _ h2 h3 h4 ih => exact .dep ih h2 h3 h4

theorem mem_outNames (names : List String) (d : String) : d ∈ outNames (names ++ ["eff"]) false ↔ d ∈ names ++ ["eff"] := by
  unfold outNames
  simp only [Bool.false_eq_true, if_false, List.mem_append, List.mem_singleton]
  by_cases hd : d = "eff"
  · simp [hd]
  · rw [List.mem_erase_of_ne hd]
    simp [hd]

end Verif.Shipped
