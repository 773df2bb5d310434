/-
Property theorems C10-C16 about plugin registration, dependency resolution, the generated simulation code
and the function cache (component.py).

Specification vocabulary: `Reach`, `DirectDep`, `Path` (`Verif/Spec/Deps.lean`) and `Evaluates`
(`Verif/Spec/Eval.lean`).
-/
import Mathlib.Data.List.Induction
import Verif.Lemmas.Component

namespace Verif.Comp
open Verif

/-- Different needed plugins have different class names (python: they are imported from one namespace). -/
def DistinctNames (reg : Registry) (nodep : String) (names : List String) : Prop :=
  ∀ d d' p p', Reach reg nodep names d → Reach reg nodep names d' → reg.get? d = some p →
    reg.get? d' = some p' → p.name = p'.name → p = p'

/-- **C10.** If resolution succeeds, the worksheet contains exactly the plugins needed, each once, and
every input of a plugin is the no-dependency name or is provided by an earlier plugin. -/
theorem C10_topological_order (reg : Registry) (nodep : String) (fuel : Nat) (names : List String)
    (deps : List Entry) (h : deduceDeps reg nodep fuel names [] = .ok deps)
    (hname : DistinctNames reg nodep names) :
    (worksheet deps).Nodup ∧ ((worksheet deps).map Plugin.name).Nodup ∧
    (∀ p, p ∈ worksheet deps ↔ ∃ d, Reach reg nodep names d ∧ reg.get? d = some p) ∧
    (∀ pre p post, worksheet deps = pre ++ p :: post → ∀ e ∈ p.dependsOn, e = nodep ∨
      (Reach reg nodep names e ∧ ∃ q ∈ pre, reg.get? e = some q)) := by
  rw [worksheet_eq]
  have hmem : ∀ p, p ∈ deps.reverse.map Entry.plugin ↔
      ∃ d, Reach reg nodep names d ∧ reg.get? d = some p := by
    intro p
    simp only [List.mem_map, List.mem_reverse]
    constructor
    · rintro ⟨e, he, rfl⟩
      exact ⟨e.data, (deduce_mem_iff _ _ _ h e).1 he⟩
    · rintro ⟨d, hd, hg⟩
      exact ⟨⟨p, d⟩, (deduce_mem_iff _ _ _ h ⟨p, d⟩).2 ⟨hd, hg⟩, rfl⟩
  have hiff : ∀ p, p ∈ firsts (deps.reverse.map Entry.plugin) [] ↔
      ∃ d, Reach reg nodep names d ∧ reg.get? d = some p := by
    intro p
    constructor
    · intro hp; exact (hmem p).1 (mem_of_mem_firsts hp).1
    · intro hp
      obtain ⟨q, hq, hqn⟩ := exists_firsts_of_mem (seen := []) ((hmem p).2 hp) (by simp)
      obtain ⟨d, hd, hg⟩ := hp
      obtain ⟨d', hd', hg'⟩ := (hmem q).1 (mem_of_mem_firsts hq).1
      have := hname d' d q p hd' hd hg' hg hqn
      subst this; exact hq
  refine ⟨List.Nodup.of_map _ (firsts_names_nodup _ _), firsts_names_nodup _ _, hiff, ?_⟩
  intro pre p post heq e he
  by_cases hne : e = nodep
  · exact Or.inl hne
  · right
    obtain ⟨pre', post', hsplit, hseen⟩ := firsts_split heq
    have hp : p ∈ firsts (deps.reverse.map Entry.plugin) [] := by rw [heq]; simp
    obtain ⟨d, hd, hg⟩ := (hiff p).1 hp
    have hre : Reach reg nodep names e := .dep hd hg he hne
    refine ⟨hre, ?_⟩
    -- split the dependency list at the corresponding entry
    obtain ⟨l1, l2, hl, hl1, hl2⟩ := List.map_eq_append_iff.1 hsplit
    obtain ⟨x, l3, rfl, hx, hl3⟩ := List.map_eq_cons_iff.1 hl2
    have hdeps : deps = l3.reverse ++ x :: l1.reverse := by
      have := congrArg List.reverse hl
      simpa using this
    obtain ⟨y, hy, hyd⟩ := deduce_depsLater _ _ _ h _ _ _ hdeps e (by rw [hx]; exact he) hne
    have hy1 : y.plugin ∈ pre' := by
      rw [← hl1]; exact List.mem_map_of_mem (List.mem_reverse.1 hy)
    have hyg : reg.get? e = some y.plugin := by
      rw [← hyd]
      exact ((deduce_mem_iff _ _ _ h y).1 (by rw [hdeps]; simp [List.mem_reverse.1 hy])).2
    rcases hseen _ hy1 with h1 | ⟨q, hq, hqn⟩
    · simp at h1
    · have hq' : q ∈ firsts (deps.reverse.map Entry.plugin) [] := by rw [heq]; simp [hq]
      obtain ⟨d', hd', hg'⟩ := (hiff q).1 hq'
      have := hname d' e q y.plugin hd' hre hg' hyg hqn
      rw [← this] at hyg
      exact ⟨q, hq, hyg⟩

/-- A diamond: `c` needs `a`, `b`; `b` needs `a`; `a` and `e` need the batch size. -/
def exA : Plugin := ⟨"A", ["a"], ["batch_size"], ["pa"], []⟩
def exB : Plugin := ⟨"B", ["b", "b2"], ["a"], ["pb"], []⟩
def exC : Plugin := ⟨"C", ["c"], ["a", "b"], [], [⟨"cfg", none⟩]⟩
def exE : Plugin := ⟨"E", ["eff"], ["batch_size"], [], []⟩
def exReg : Registry := (registerAll [] [exC, exA, exE, exB]).1

theorem exReg_distinct (names : List String) : DistinctNames exReg "batch_size" names := by
  intro d d' p p' _ _ h1 h2 hn
  have h1 := PyDict.mem_of_get? _ h1
  have h2 := PyDict.mem_of_get? _ h2
  have hall : ∀ x ∈ exReg, ∀ y ∈ exReg, x.2.name = y.2.name → x.2 = y.2 := by decide
  exact hall _ h1 _ h2 hn

/-- Non-vacuity of C10: the diamond resolves, in dependency order. -/
example : (deduceDeps exReg "batch_size" 4 ["c", "eff"] []).map worksheet = .ok [exA, exB, exE, exC] := by
  decide

/-- C10 needs distinct class names: of two needed plugins of the same name only one is kept. -/
theorem C10_same_name_dropped :
    ∃ (reg : Registry) (names : List String) (deps : List Entry),
      deduceDeps reg "batch_size" 9 names [] = .ok deps ∧
      ∃ d p, Reach reg "batch_size" names d ∧ reg.get? d = some p ∧ p ∉ worksheet deps := by
  refine ⟨[("a", exA), ("b", { exB with name := "A" })], ["a", "b"],
    [⟨exA, "a"⟩, ⟨{ exB with name := "A" }, "b"⟩, ⟨exA, "a"⟩], by decide,
    "b", { exB with name := "A" }, .root (by decide) (by decide), by decide, by decide⟩

/-- Hypotheses under which the registry determines the data flow: every plugin in the simulation is the
registered provider of those of its outputs that are needed, no output is listed twice or is the
no-dependency name, and a registered provider really provides the name. -/
structure Consistent (reg : Registry) (nodep : String) (names : List String) : Prop where
  names_distinct : DistinctNames reg nodep names
  provides : ∀ d p, Reach reg nodep names d → reg.get? d = some p → d ∈ p.provides
  sole : ∀ d p d', Reach reg nodep names d → reg.get? d = some p → d' ∈ p.provides →
    Reach reg nodep names d' → reg.get? d' = some p
  nodup : ∀ d p, Reach reg nodep names d → reg.get? d = some p → p.provides.Nodup
  no_nodep : ∀ d p, Reach reg nodep names d → reg.get? d = some p → nodep ∉ p.provides
  nonempty : ∀ d p, Reach reg nodep names d → reg.get? d = some p → p.dependsOn ≠ []

/-- **C11.** For a consistent registry, if resolution succeeds and every plugin in the simulation is the one
exported under its name and returns as many values as it provides, then running the generated code
succeeds.  There is one value per data name such that each plugin of the worksheet is called once, on the values
of its inputs and the key left by the previous call, and its needed outputs are the values of their names;
the simulator returns the values of the requested names. -/
theorem C11_generated_code_computes_data_flow {K V : Type} (reg : Registry) (nodep : String) (fuel : Nat)
    (names : List String) (deps : List Entry) (h : deduceDeps reg nodep fuel names [] = .ok deps)
    (hc : Consistent reg nodep names)
    (ns : PyDict String Plugin) (sem : Plugin → K → List V → Res (K × List V))
    (hns : ∀ p ∈ worksheet deps, ns.get? p.name = some p)
    (hsem : ∀ p ∈ worksheet deps, ∀ k args, args.length = p.dependsOn.length →
      ∃ k' outs, sem p k args = .ok (k', outs) ∧ outs.length = p.provides.length)
    (compName llhName funcName : String) (key : K) (input : V) :
    ∃ (key' : K) (val : String → V),
      (genCode compName llhName (worksheet deps) names funcName nodep).run ns sem key input
        = .ok (key', names.map val) ∧
      val nodep = input ∧
      Evaluates sem (Reach reg nodep names) val (worksheet deps) key key' := by
  obtain ⟨hnd, hnames, hmem, htopo⟩ := C10_topological_order reg nodep fuel names deps h hc.names_distinct
  have hnn : ¬ Reach reg nodep names nodep := fun hr => hr.ne rfl
  obtain ⟨inst, hinst, hget⟩ := instantiate_ok ns (worksheet deps) hns (by
    intro p hp
    obtain ⟨d, hd, hg⟩ := (hmem p).1 hp
    exact ⟨hc.nonempty d p hd hg, List.ne_nil_of_mem (hc.provides d p hd hg)⟩) hnames
  obtain ⟨key', env', hr, hin, _, hall, hev⟩ := runWorks_spec (reg := reg) (nodep := nodep) inst sem input
    (Reach reg nodep names) (worksheet deps) hget hsem
    (fun p hp => let ⟨d, hd, hg⟩ := (hmem p).1 hp; hc.nodup d p hd hg)
    (fun p hp => let ⟨d, hd, hg⟩ := (hmem p).1 hp; hc.no_nodep d p hd hg)
    hnn
    (fun p hp d hd hn => let ⟨d0, hd0, hg⟩ := (hmem p).1 hp; hc.sole d0 p d hd0 hg hd hn)
    (fun d p hn hg => hc.provides d p hn hg)
    hnd htopo (worksheet deps) [] rfl key [(nodep, input)] (by simp [PyDict.get?_cons]) (by simp)
  refine ⟨key', fun d => (env'.get? d).getD input, ?_, by simp [hin], hev⟩
  unfold Code.run genCode
  simp only [hinst, bind, Except.bind, hr]
  rw [mapM_ok_of_forall (readVar env') (fun d => (env'.get? d).getD input) names]
  · rfl
  · intro d hd
    by_cases hne : d = nodep
    · rw [hne, readVar, hin]; rfl
    · have hreach : Reach reg nodep names d := .root hd hne
      obtain ⟨p, hp⟩ := deduce_complete _ _ _ h d hreach
      obtain ⟨v, hv⟩ := hall d p hreach hp ((hmem p).2 ⟨d, hreach, hp⟩)
      rw [readVar, hv]; rfl

/-- The values are determined: two assignments that give the same input and evaluate the same worksheet from
the same key agree on every needed name. -/
theorem C11_values_unique {K V : Type} (reg : Registry) (nodep : String) (fuel : Nat)
    (names : List String) (deps : List Entry) (h : deduceDeps reg nodep fuel names [] = .ok deps)
    (hc : Consistent reg nodep names) (sem : Plugin → K → List V → Res (K × List V))
    (val val' : String → V) (key k1 k2 : K) (hin : val nodep = val' nodep)
    (h1 : Evaluates sem (Reach reg nodep names) val (worksheet deps) key k1)
    (h2 : Evaluates sem (Reach reg nodep names) val' (worksheet deps) key k2) :
    k1 = k2 ∧ ∀ d, Reach reg nodep names d → val d = val' d := by
  obtain ⟨_, _, hmem, htopo⟩ := C10_topological_order reg nodep fuel names deps h hc.names_distinct
  have gen : ∀ (rest pre : List Plugin) (key : K), worksheet deps = pre ++ rest →
      (∀ d q, Reach reg nodep names d → reg.get? d = some q → q ∈ pre → val d = val' d) →
      Evaluates sem (Reach reg nodep names) val rest key k1 →
      Evaluates sem (Reach reg nodep names) val' rest key k2 →
      k1 = k2 ∧ ∀ d q, Reach reg nodep names d → reg.get? d = some q → q ∈ worksheet deps →
        val d = val' d := by
    intro rest
    induction rest with
    | nil =>
      intro pre key hs hpre e1 e2
      cases e1; cases e2
      refine ⟨rfl, fun d q hd hg hq => hpre d q hd hg ?_⟩
      rw [hs] at hq; simpa using hq
    | cons p rest ih =>
      intro pre key hs hpre e1 e2
      cases e1 with
      | cons s1 o1 e1 =>
        cases e2 with
        | cons s2 o2 e2 =>
          have hargs : p.dependsOn.map val = p.dependsOn.map val' := by
            apply List.map_congr_left
            intro e he
            rcases htopo pre p rest hs e he with rfl | ⟨hr, q, hq, hg⟩
            · exact hin
            · exact hpre e q hr hg hq
          rw [hargs] at s1
          rw [s1] at s2
          simp only [Except.ok.injEq, Prod.mk.injEq] at s2
          obtain ⟨rfl, rfl⟩ := s2
          refine ih (pre ++ [p]) _ (by simp [hs]) ?_ e1 e2
          intro d q hd hg hq
          rcases List.mem_append.1 hq with hq | hq
          · exact hpre d q hd hg hq
          · rw [List.mem_singleton] at hq; subst hq
            obtain ⟨i, hi⟩ := List.getElem?_of_mem (hc.provides d q hd hg)
            have a1 := o1 i d hi hd
            have a2 := o2 i d hi hd
            rw [a1] at a2
            exact Option.some.inj a2
  obtain ⟨hk, hv⟩ := gen (worksheet deps) [] key rfl (by simp) h1 h2
  refine ⟨hk, fun d hd => ?_⟩
  obtain ⟨p, hp⟩ := deduce_complete _ _ _ h d hd
  exact hv d p hd hp ((hmem p).2 ⟨d, hd, hp⟩)

/-- Toy plugin functions: `A` gives 10*key, `B` gives (a+1, 0), `C` gives a+100*b, `E` gives 7; each
increments the key. -/
def exSem (p : Plugin) (k : Nat) (args : List Nat) : Res (Nat × List Nat) :=
  match p.name, args with
  | "A", [_] => .ok (k + 1, [10 * k])
  | "B", [a] => .ok (k + 1, [a + 1, 0])
  | "C", [a, b] => .ok (k + 1, [a + 100 * b])
  | "E", [_] => .ok (k + 1, [7])
  | _, _ => .error .typeError

/-- Non-vacuity of C11: the diamond registry is consistent. -/
example : Consistent exReg "batch_size" ["c", "eff"] := by
  have key : ∀ d p, exReg.get? d = some p → (d, p) ∈ exReg := fun d p h => PyDict.mem_of_get? _ h
  refine ⟨exReg_distinct _, ?_, ?_, ?_, ?_, ?_⟩
  · intro d p _ h
    exact (by decide : ∀ x ∈ exReg, x.1 ∈ x.2.provides) _ (key d p h)
  · intro d p d' _ h hd' _
    exact (by decide : ∀ x ∈ exReg, ∀ d' ∈ x.2.provides, exReg.get? d' = some x.2) _ (key d p h) d' hd'
  · intro d p _ h
    exact (by decide : ∀ x ∈ exReg, x.2.provides.Nodup) _ (key d p h)
  · intro d p _ h
    exact (by decide : ∀ x ∈ exReg, "batch_size" ∉ x.2.provides) _ (key d p h)
  · intro d p _ h
    exact (by decide : ∀ x ∈ exReg, x.2.dependsOn ≠ []) _ (key d p h)

/-- The generated code of the diamond, run from key 3: `a`=30, `b`=31, `c`=3130. -/
example : ((deduceDeps exReg "batch_size" 4 ["c", "eff"] []).map worksheet).bind
    (fun ws => (genCode "n" "l" ws ["c", "eff"] "simulate" "batch_size").run
      [("A", exA), ("B", exB), ("C", exC), ("E", exE)] exSem 3 100) = .ok (7, [3130, 7]) := by decide

/-- **C11 (names that are not set).** In code that was put together by hand a line reading a name that neither is the argument nor is
set by a line before it raises NameError, and so does returning such a name. -/
theorem C11_unset_name {K V : Type} (c : Code) (ns inst : PyDict String Plugin) (sem : Plugin → K → List V → Res (K × List V))
    (key : K) (input : V) (hinst : instantiate ns c.works = .ok inst) (pre post : List Work) (s : K × PyDict String V)
    (hpre : runWorks inst sem pre (key, [(c.nodep, input)]) = .ok s) (x : String) (hx : x ≠ c.nodep)
    (hxp : ∀ w ∈ pre, x ∉ w.provides) :
    (∀ w p, c.works = pre ++ w :: post → inst.get? w.name = some p → x ∈ w.dependsOn → c.run ns sem key input = .error .nameError) ∧
    (c.works = pre → x ∈ c.outs → c.run ns sem key input = .error .nameError) := by
  have hn : x ∉ s.2.keys := by
    intro hk
    rcases runWorks_keys inst sem pre _ _ hpre x hk with h | ⟨w, hw, h⟩
    · simp [PyDict.keys] at h; exact hx h
    · exact hxp w hw h
  unfold Code.run
  simp only [hinst, bind, Except.bind]
  constructor
  · intro w p hw hp hd
    have : runWorks inst sem c.works (key, [(c.nodep, input)]) = .error .nameError := by
      unfold runWorks at hpre ⊢
      rw [hw, List.foldlM_append, hpre]
      simp only [bind, Except.bind]
      rw [List.foldlM_cons]
      have h1 : runWork inst sem w s = .error .nameError := by
        unfold runWork
        simp only [hp, bind, Except.bind]
        rw [readVars_unbound s.2 w.dependsOn x hd hn]
      rw [h1]; rfl
    rw [this]
  · intro hw ho
    rw [hw, hpre]
    simp only
    rw [readVars_unbound s.2 c.outs x ho hn]

/-- Non-vacuity: only the last of the three lines, and a returned name that is not set. -/
example : (Code.mk "simulate" "batch_size" [Work.ofPlugin exC] ["c"] "n" "l").run [("C", exC)] exSem 3 100 = .error .nameError ∧
    (Code.mk "simulate" "batch_size" [Work.ofPlugin exA] ["c"] "n" "l").run [("A", exA)] exSem 3 100 = .error .nameError := by
  decide

/-- C11 without the `sole` hypothesis fails: `B'` is registered last for `b`, but the simulator returns the
value computed by `A'`, which also provides `b`. -/
theorem C11_shadowed_output_used :
    let A' : Plugin := ⟨"A", ["a", "b"], ["batch_size"], [], []⟩
    let B' : Plugin := ⟨"B", ["b"], ["batch_size"], [], []⟩
    let reg : Registry := (registerAll [] [A', B']).1
    let sem : Plugin → Nat → List Nat → Res (Nat × List Nat) := fun p k _ =>
      if p = A' then .ok (k, [1, 2]) else .ok (k, [5])
    reg.get? "b" = some B' ∧
    ((deduceDeps reg "batch_size" 9 ["a", "b"] []).map worksheet).bind
      (fun ws => (genCode "n" "l" ws ["a", "b"] "simulate" "batch_size").run
        [("A", A'), ("B", B')] sem 0 0) = .ok (0, [1, 2]) := by decide

/-- The generated code uses the class found in `appletree.plugins` under the name of the registered plugin:
if the registered class is not the exported one, the other one runs, and if none is exported the import fails. -/
theorem C11_class_looked_up_by_name :
    let mine : Plugin := ⟨"A", ["a"], ["batch_size"], [], []⟩
    let exported : Plugin := ⟨"A", ["a"], ["batch_size"], ["other"], []⟩
    let reg : Registry := (registerAll [] [mine]).1
    let sem : Plugin → Nat → List Nat → Res (Nat × List Nat) := fun p k _ =>
      if p = mine then .ok (k, [1]) else .ok (k, [2])
    let run := fun ns => ((deduceDeps reg "batch_size" 9 ["a"] []).map worksheet).bind
      (fun ws => (genCode "n" "l" ws ["a"] "simulate" "batch_size").run ns sem 0 0)
    run [("A", exported)] = .ok (0, [2]) ∧ run [] = .error .importError := by decide

/-- **C12 (exact).** With recursion depth `fuel`, resolution succeeds exactly if `fuel` is positive, every
reachable name is provided, and no dependency chain from a requested name is too long. -/
theorem C12_success_iff (reg : Registry) (nodep : String) (fuel : Nat) (names : List String) :
    (∃ deps, deduceDeps reg nodep fuel names [] = .ok deps) ↔
      0 < fuel ∧ (∀ d, Reach reg nodep names d → ∃ p, reg.get? d = some p) ∧
      ∀ n ∈ names, ∀ k, Path reg nodep k n → k + 1 < fuel := by
  constructor
  · rintro ⟨deps, h⟩
    refine ⟨?_, deduce_complete _ _ _ h, fun n hn k hk => deduce_no_long_path _ _ _ h n hn k hk⟩
    cases fuel with
    | zero => cases h
    | succ f => omega
  · rintro ⟨h1, h2, h3⟩
    exact deduce_of_no_long_path _ _ h1 h2 h3

/-- **C12.** An acyclic registry in which every reachable name is provided resolves, within a recursion depth
of one more than the number of registered names. -/
theorem C12_acyclic_complete_succeeds (reg : Registry) (nodep : String) (fuel : Nat) (names : List String)
    (hcomp : ∀ d, Reach reg nodep names d → ∃ p, reg.get? d = some p)
    (hac : ∀ d, Reach reg nodep names d → ¬ Relation.TransGen (DirectDep reg nodep) d d)
    (hf : reg.keys.length + 1 ≤ fuel) :
    ∃ deps, deduceDeps reg nodep fuel names [] = .ok deps :=
  deduce_terminates fuel names [] hcomp hac (by simp) (by simp) (by simpa using hf)

/-- A reachable name that nothing provides: resolution fails at every recursion depth. -/
theorem C12_missing_fails (reg : Registry) (nodep : String) (names : List String) (d : String)
    (hd : Reach reg nodep names d) (hm : reg.get? d = none) (fuel : Nat) (deps : List Entry) :
    deduceDeps reg nodep fuel names [] ≠ .ok deps := by
  intro h
  obtain ⟨p, hp⟩ := deduce_complete _ _ _ h d hd
  rw [hm] at hp; cases hp

/-- A requested name that nothing provides raises ValueError. -/
theorem C12_missing_request_valueError (reg : Registry) (nodep : String) (names : List String) (d : String)
    (hd : d ∈ names) (hne : d ≠ nodep) (hm : reg.get? d = none) (fuel : Nat) :
    deduceDeps reg nodep (fuel + 1) names [] = .error .valueError := by
  have : ∀ (ns : List String) acc, d ∈ ns → appendEntries reg nodep ns acc = .error .valueError := by
    intro ns
    induction ns with
    | nil => intro acc h; simp at h
    | cons n ns ih =>
      intro acc h
      simp only [appendEntries]
      rcases List.mem_cons.1 h with rfl | h
      · simp [hne, hm]
      · split
        · exact ih acc h
        · split
          · rfl
          · exact ih _ h
  unfold deduceDeps
  rw [this names [] hd]; rfl

/-- A reachable dependency cycle: resolution fails at every recursion depth. -/
theorem C12_cycle_fails (reg : Registry) (nodep : String) (names : List String) (d : String)
    (hd : Reach reg nodep names d) (hcyc : Relation.TransGen (DirectDep reg nodep) d d) (fuel : Nat)
    (deps : List Entry) : deduceDeps reg nodep fuel names [] ≠ .ok deps := by
  intro h
  have : ∀ m, ∃ k, m ≤ k ∧ Path reg nodep k d := by
    intro m
    induction m with
    | zero => exact ⟨0, by omega, .zero hd.ne⟩
    | succ m ih =>
      obtain ⟨k, hk, hp⟩ := ih
      obtain ⟨k', hk', hp'⟩ := Path.of_transGen hcyc hp
      exact ⟨k', by omega, hp'⟩
  obtain ⟨k, hk, hp⟩ := this fuel
  obtain ⟨n, hn, k', hk', hp'⟩ := Path.of_reach hd hp
  have := deduce_no_long_path _ _ _ h n hn k' hp'
  omega

/-- Non-vacuity of C12: a cycle of two plugins is reachable. -/
example : let reg : Registry := [("a", ⟨"A", ["a"], ["b"], [], []⟩), ("b", ⟨"B", ["b"], ["a"], [], []⟩)]
    Reach reg "batch_size" ["a"] "a" ∧ Relation.TransGen (DirectDep reg "batch_size") "a" "a" := by
  refine ⟨.root (by decide) (by decide), .tail (.single (b := "b") ?_) ?_⟩
  · exact ⟨by decide, by decide, _, rfl, by decide⟩
  · exact ⟨by decide, by decide, _, rfl, by decide⟩

/-- Non-vacuity of C12: the diamond resolves with depth 4 (longest chain c, b, a) and not with 3. -/
example : (∃ deps, deduceDeps exReg "batch_size" 4 ["c"] [] = .ok deps) ∧
    deduceDeps exReg "batch_size" 3 ["c"] [] = .error .recursionError :=
  ⟨⟨[⟨exC, "c"⟩, ⟨exA, "a"⟩, ⟨exB, "b"⟩, ⟨exA, "a"⟩], by decide⟩, by decide⟩

/-- **C13.** After a successful `deduce` from any component state, the needed parameters are exactly the
nonempty rate name, the parameters of the needed plugins and the parameters their configurations require. -/
theorem C13_needed_parameters (c c' : Comp) (g g' : FnCache) (a : DeduceArgs)
    (h : deduce c g a = ((c', g'), .ok ()))
    (hname : DistinctNames c.registry a.nodep (outNames a.dataNames a.force)) (q : String) :
    q ∈ c'.needed ↔ (c.rateName ≠ "" ∧ q = c.rateName) ∨
      ∃ d p, Reach c.registry a.nodep (outNames a.dataNames a.force) d ∧ c.registry.get? d = some p ∧
        (q ∈ p.parameters ∨ ∃ cfg ∈ p.configs, a.required cfg = .ok (some q)) := by
  obtain ⟨deps, nd, hd, hn, rfl, _, _⟩ := deduce_ok_iff h
  obtain ⟨_, _, hmem, _⟩ := C10_topological_order _ _ _ _ _ hd hname
  simp only
  rw [(needLoop_ok _ _ _ _ _ hn).2 q]
  apply or_congr
  · by_cases hr : c.rateName = "" <;> simp [hr]
  · constructor
    · rintro ⟨p, hp, hq⟩
      obtain ⟨d, h1, h2⟩ := (hmem p).1 hp
      exact ⟨d, p, h1, h2, hq⟩
    · rintro ⟨d, p, h1, h2, hq⟩
      exact ⟨p, (hmem p).2 ⟨d, h1, h2⟩, hq⟩

/-- Non-vacuity of C13: a component with leftovers from an earlier deduce. -/
def exComp : Comp := { name := "er", llhName := "l", rateName := "er_rate", registry := exReg, needed := ["old"] }

example : (deduce exComp {} { dataNames := ["b"], required := fun _ => .ok (some "s") }).1.1.needed
    = ["er_rate", "pa", "pb"] ∧
    (deduce exComp {} { dataNames := ["c"], required := fun _ => .ok (some "s") }).1.1.needed
    = ["er_rate", "pa", "pb", "s"] := by decide

/-- The last plugin of a list that provides `d`. -/
def lastProvider (ps : List Plugin) (d : String) : Option Plugin :=
  (ps.filter (fun p => d ∈ p.provides)).getLast?

/-- **C14.** After registering plugins in order (up to and including a failing one) each name maps to the last
registered plugin that provides it, or to what it was before. -/
theorem C14_last_provider_wins (reg : Registry) (ps : List Plugin)
    (h : (registerAll reg ps).2 = .ok ()) (d : String) :
    (registerAll reg ps).1.get? d = (lastProvider ps d).or (reg.get? d) := by
  induction ps generalizing reg with
  | nil => simp [registerAll, lastProvider]
  | cons p ps ih =>
    simp only [registerAll] at h ⊢
    have hreg : (register reg p).1 = addProvides reg p := by
      unfold register; simp only; split <;> rfl
    cases hr : register reg p with
    | mk r e =>
      rw [hr] at h hreg
      simp only at hreg
      subst hreg
      cases e with
      | error e => simp at h
      | ok u =>
        simp only at h ⊢
        rw [ih _ h, get?_addProvides]
        unfold lastProvider
        by_cases hd : d ∈ p.provides
        · simp only [List.filter_cons, hd, decide_true, if_true]
          rw [List.getLast?_cons]
          cases (List.filter (fun p => decide (d ∈ p.provides)) ps).getLast? <;> simp
        · simp [List.filter_cons, hd]

/-- Every registered plugin provides the name it is registered for: an invariant of any registration history,
failing registrations included. -/
theorem C14_provider_provides (ps : List Plugin) (reg : Registry)
    (hreg : ∀ d p, reg.get? d = some p → d ∈ p.provides) (d : String) (p : Plugin)
    (h : (registerAll reg ps).1.get? d = some p) : d ∈ p.provides := by
  induction ps generalizing reg with
  | nil => exact hreg d p h
  | cons q ps ih =>
    have hadd : ∀ d p, (addProvides reg q).get? d = some p → d ∈ p.provides := by
      intro d p hg
      rw [get?_addProvides] at hg
      split at hg
      · cases hg; assumption
      · exact hreg d p hg
    have hr : (register reg q).1 = addProvides reg q := by
      unfold register; simp only; split <;> rfl
    simp only [registerAll] at h
    cases hr' : register reg q with
    | mk r e =>
      rw [hr'] at h hr
      simp only at hr
      subst hr
      cases e with
      | error e => exact hadd d p h
      | ok u => exact ih _ hadd h

/-- All registered plugins that share a configuration name agree on its default. -/
def DefaultsAgree (reg : Registry) : Prop :=
  ∀ d d' p p', reg.get? d = some p → reg.get? d' = some p' → ∀ c ∈ p.configs, ∀ c' ∈ p'.configs,
    c.name = c'.name → c.default = c'.default

/-- **C14.** Successful registrations keep the defaults consistent (config names within one plugin are
distinct, as keys of a dictionary). -/
theorem C14_defaults_agree (ps : List Plugin) (reg : Registry) (hk : reg.keys.Nodup)
    (hreg : DefaultsAgree reg)
    (hdict : ∀ p ∈ ps, ∀ c ∈ p.configs, ∀ c' ∈ p.configs, c.name = c'.name → c = c')
    (h : (registerAll reg ps).2 = .ok ()) : DefaultsAgree (registerAll reg ps).1 := by
  induction ps generalizing reg with
  | nil => exact hreg
  | cons q ps ih =>
    simp only [registerAll] at h ⊢
    cases hr : register reg q with
    | mk r e =>
      rw [hr] at h
      cases e with
      | error e => simp at h
      | ok u =>
        simp only at h ⊢
        unfold register at hr
        simp only at hr
        split at hr
        · cases hr
        · rename_i hno
          simp only [Prod.mk.injEq, and_true] at hr
          subst hr
          refine ih _ (nodup_addProvides _ _ hk) ?_ (fun p hp => hdict p (by simp [hp])) h
          have hnc : ∀ d p, (addProvides reg q).get? d = some p → ∀ c ∈ p.configs, ∀ c' ∈ q.configs,
              c.name = c'.name → c.default = c'.default := by
            intro d p hg c hc c' hc' hn
            by_contra hne
            apply hno
            rw [List.any_eq_true]
            refine ⟨p, List.mem_map.2 ⟨(d, p), PyDict.mem_of_get? _ hg, rfl⟩, ?_⟩
            unfold conflicts
            rw [List.any_eq_true]
            refine ⟨c, hc, ?_⟩
            rw [List.any_eq_true]
            exact ⟨c', hc', by simp [hn, hne]⟩
          intro d d' p p' h1 h2 c hc c' hc' hn
          have h1' := h1
          have h2' := h2
          rw [get?_addProvides] at h1' h2'
          split at h1'
          · cases h1'
            exact (hnc d' p' h2 c' hc' c hc hn.symm).symm
          · split at h2'
            · cases h2'
              exact hnc d p h1 c hc c' hc' hn
            · exact hreg d d' p p' h1' h2' c hc c' hc' hn

/-- A registration raises ValueError exactly if some plugin registered afterwards (the new one included)
disagrees with the new plugin on the default of a configuration. -/
theorem C14_conflict_iff (reg : Registry) (q : Plugin) :
    (register reg q).2 = .error .valueError ↔
      ∃ p ∈ (addProvides reg q).map Prod.snd, ∃ c ∈ p.configs, ∃ c' ∈ q.configs,
        c'.name = c.name ∧ c.default ≠ c'.default := by
  unfold register
  simp only
  split
  · rename_i h
    simp only [true_iff]
    rw [List.any_eq_true] at h
    obtain ⟨p, hp, h⟩ := h
    unfold conflicts at h
    simp only [List.any_eq_true, decide_eq_true_eq] at h
    exact ⟨p, hp, h⟩
  · rename_i h
    simp only [reduceCtorEq, false_iff]
    rintro ⟨p, hp, hc⟩
    apply h
    rw [List.any_eq_true]
    refine ⟨p, hp, ?_⟩
    unfold conflicts
    simpa only [List.any_eq_true, decide_eq_true_eq] using hc

/-- A failed registration is not rolled back: the plugin stays registered, the defaults disagree, and later
registrations and resolutions go on with it. -/
theorem C14_failed_registration_stays :
    let p : Plugin := ⟨"P", ["a"], ["batch_size"], [], [⟨"f", some "x"⟩]⟩
    let q : Plugin := ⟨"Q", ["b"], ["batch_size"], [], [⟨"f", some "y"⟩]⟩
    let reg := (registerAll [] [p]).1
    (register reg q).2 = .error .valueError ∧ (register reg q).1.get? "b" = some q ∧
      ¬ DefaultsAgree (register reg q).1 ∧
      (∃ deps, deduceDeps (register reg q).1 "batch_size" 9 ["a", "b"] [] = .ok deps) := by
  refine ⟨by decide, by decide, ?_, ⟨[⟨⟨"P", ["a"], ["batch_size"], [], [⟨"f", some "x"⟩]⟩, "a"⟩,
    ⟨⟨"Q", ["b"], ["batch_size"], [], [⟨"f", some "y"⟩]⟩, "b"⟩], by decide⟩⟩
  intro hc
  have := hc "a" "b" ⟨"P", ["a"], ["batch_size"], [], [⟨"f", some "x"⟩]⟩
    ⟨"Q", ["b"], ["batch_size"], [], [⟨"f", some "y"⟩]⟩ (by decide) (by decide) ⟨"f", some "x"⟩ (by decide)
    ⟨"f", some "y"⟩ (by decide) rfl
  exact absurd this (by decide)

/-- Non-vacuity of C14: an overriding registration with an agreeing default. -/
example : let p : Plugin := ⟨"P", ["a", "b"], ["batch_size"], [], [⟨"f", some "x"⟩]⟩
    let q : Plugin := ⟨"Q", ["b"], ["batch_size"], [], [⟨"f", some "x"⟩]⟩
    registerAll [] [p, q] = ([("a", p), ("b", q)], .ok ()) := by decide

/-- **C15 (partial).** A successful `deduce` of a component that was never deduced with `force_no_eff`, for
requests naming the efficiency at most once: the outputs are the request without "eff" and then "eff" unless
forced, "eff" occurs exactly once (not at all if forced), and histogramming takes the last column as
weights, or unit weights and all columns if forced.
Missing from the full claim: independence of earlier deduces, see `C15_force_no_eff_sticky`. -/
theorem C15_efficiency_column_partial {V : Type} (c c' : Comp) (g g' : FnCache) (a : DeduceArgs)
    (hfresh : c.forceNoEff = false) (hone : a.dataNames.count "eff" ≤ 1)
    (h : deduce c g a = ((c', g'), .ok ())) (one : V) (cols : List (List V)) (last : List V) :
    ∃ code, c'.code = some code ∧
      (a.force = false → code.outs = a.dataNames.filter (· ≠ "eff") ++ ["eff"] ∧
        splitEff one c'.forceNoEff (cols ++ [last]) = .ok (cols, last)) ∧
      (a.force = true → code.outs = a.dataNames.filter (· ≠ "eff") ∧
        splitEff one c'.forceNoEff (cols ++ [last])
          = .ok (cols ++ [last], List.replicate last.length one)) := by
  obtain ⟨deps, nd, _, _, rfl, _, _⟩ := deduce_ok_iff h
  have herase : a.dataNames.erase "eff" = a.dataNames.filter (· ≠ "eff") := by
    generalize a.dataNames = l at hone
    induction l with
    | nil => rfl
    | cons x l ih =>
      by_cases hx : x = "eff"
      · subst hx
        have h0 : "eff" ∉ l := by
          rw [List.count_cons_self] at hone
          exact List.count_eq_zero.1 (by omega)
        rw [List.erase_cons_head]
        symm
        simp only [List.filter_cons, ne_eq, not_true, decide_false, Bool.false_eq_true, if_false]
        rw [List.filter_eq_self]
        intro y hy
        simp only [decide_not, Bool.not_eq_eq_eq_not, Bool.not_true, decide_eq_false_iff_not]
        rintro rfl; exact h0 hy
      · rw [List.erase_cons_tail (by simpa using hx)]
        rw [List.count_cons_of_ne hx] at hone
        rw [ih hone]
        simp [List.filter_cons, hx]
  refine ⟨_, rfl, ?_, ?_⟩
  · intro hf
    simp [genCode, outNames, hf, hfresh, herase, splitEff]
  · intro hf
    simp [genCode, outNames, hf, herase, splitEff]

/-- Non-vacuity of C15. -/
example : ((deduce { exComp with needed := [] } {} { dataNames := ["eff", "c"] }).1.1.code.map Code.outs)
    = some ["c", "eff"] := by decide

/-- The full C15 fails: after a deduce with `force_no_eff`, clearing the cache and deducing again without it
gives an efficiency column, which histogramming then treats as data, with unit weights. -/
theorem C15_force_no_eff_sticky :
    let r1 := deduce exComp {} { dataNames := ["c"], force := true }
    let r2 := deduce r1.1.1 (clearCache r1.1.2) { dataNames := ["c"] }
    r1.2 = .ok () ∧ r2.2 = .ok () ∧ r2.1.1.code.map Code.outs = some ["c", "eff"] ∧
      splitEff 1 r2.1.1.forceNoEff [[20, 30], [5, 6]] = .ok ([[20, 30], [5, 6]], [1, 1]) := by decide

/-- A `deduce` that raises is not without effect: the compiled simulator still returns the efficiency column but
it is no longer used as the weight. -/
theorem C15_failed_deduce_changes_weights :
    let r1 := deduce exComp {} { dataNames := ["c"] }
    let r2 := compile r1.1.1 r1.1.2
    let r3 := deduce r2.1.1 r2.1.2 { dataNames := ["c"], force := true }
    r2.2 = .ok () ∧ r3.2 = .error .runtimeError ∧
      r3.1.1.simulate.map Code.outs = some ["c", "eff"] ∧
      splitEff 1 r2.1.1.forceNoEff [[20], [5]] = .ok ([[20]], [5]) ∧
      splitEff 1 r3.1.1.forceNoEff [[20], [5]] = .ok ([[20], [5]], [1]) := by decide

/-- **C16.** In any history, if component `i` deduces successfully and the cache is not cleared afterwards,
then whatever else any component does in between, a successful `compile` of `i` makes its simulator the code of
that deduce.  Compiling directly after the deduce succeeds. -/
theorem C16_compiled_runs_own_code_partial (w0 : World) (hw0 : Fresh w0) (ops1 ops2 : List Op) (i : Nat)
    (a : DeduceArgs) (hd : (step (runOps w0 ops1) (.deduce i a)).2 = .ok ()) (hops : Op.clear ∉ ops2) :
    let w1 := (step (runOps w0 ops1) (.deduce i a)).1
    (∃ code, (w1.comps i).code = some code ∧ code.compName = (w1.comps i).name ∧
      code.llhName = (w1.comps i).llhName ∧ code.outs = outNames a.dataNames a.force ∧
      code.works = (w1.comps i).worksheet.map Work.ofPlugin ∧
      ((step (runOps w1 ops2) (.compile i)).2 = .ok () →
        ((step (runOps w1 ops2) (.compile i)).1.comps i).simulate = some code)) ∧
    (step w1 (.compile i)).2 = .ok () := by
  intro w1
  have hinv1 : Inv w1 := (hw0.inv.runOps ops1).step _
  have hstep : ∃ c' g', deduce ((runOps w0 ops1).comps i) (runOps w0 ops1).cache a = ((c', g'), .ok ()) := by
    simp only [Comp.step] at hd
    cases hx : deduce ((runOps w0 ops1).comps i) (runOps w0 ops1).cache a with
    | mk s r => rw [hx] at hd; simp only at hd; subst hd; exact ⟨s.1, s.2, rfl⟩
  obtain ⟨c', g', hx⟩ := hstep
  have hw1 : w1 = ⟨setComp (runOps w0 ops1).comps i c', g'⟩ := by
    show (step (runOps w0 ops1) (.deduce i a)).1 = _
    simp only [Comp.step, hx]
  obtain ⟨deps, nd, _, _, rfl, _, rfl⟩ := deduce_ok_iff hx
  have ht : (w1.comps i).target = some ((runOps w0 ops1).cache.heap.length,
      genCode ((runOps w0 ops1).comps i).name ((runOps w0 ops1).comps i).llhName (worksheet deps)
        (outNames a.dataNames a.force) a.funcName a.nodep) := by rw [hw1]; simp [setComp]
  have hc : w1.cache.cache.get? (w1.comps i).llhName = some (runOps w0 ops1).cache.heap.length := by
    rw [hw1]; simp [setComp]
  refine ⟨⟨_, by rw [hw1]; simp [setComp]; rfl, by rw [hw1]; simp [setComp, genCode],
    by rw [hw1]; simp [setComp, genCode], by simp [genCode],
    by rw [hw1]; simp [setComp, genCode], ?_⟩, ?_⟩
  · intro hok
    obtain ⟨h1, h2⟩ := live_runOps i _ _ ops2 hops hc ht
    exact compile_own (hinv1.runOps ops2) i _ _ h1 h2 hok
  · rw [hw1]
    simp only [Comp.step, compile, setComp, if_true, PyDict.get?_set_self, List.getElem?_modify_eq,
      genCode]
    simp [PyDict.set, PyDict.get?_cons]

/-- **C16.** Once a likelihood name is cached, no component with that name can deduce successfully until the
cache is cleared: in particular a likelihood holds at most one simulated component. -/
theorem C16_no_second_deduce (w0 : World) (ops1 ops2 : List Op) (i j : Nat) (a b : DeduceArgs)
    (hd : (step (runOps w0 ops1) (.deduce i a)).2 = .ok ()) (hops : Op.clear ∉ ops2)
    (w1 : World) (hw1 : w1 = (step (runOps w0 ops1) (.deduce i a)).1)
    (hsame : ((runOps w1 ops2).comps j).llhName = ((runOps w1 ops2).comps i).llhName) :
    (step (runOps w1 ops2) (.deduce j b)).2 ≠ .ok () := by
  have hstep : ∃ c' g', deduce ((runOps w0 ops1).comps i) (runOps w0 ops1).cache a = ((c', g'), .ok ()) := by
    simp only [Comp.step] at hd
    cases hx : deduce ((runOps w0 ops1).comps i) (runOps w0 ops1).cache a with
    | mk s r => rw [hx] at hd; simp only at hd; subst hd; exact ⟨s.1, s.2, rfl⟩
  obtain ⟨c', g', hx⟩ := hstep
  have hw1' : w1 = ⟨setComp (runOps w0 ops1).comps i c', g'⟩ := by
    rw [hw1]; simp only [Comp.step, hx]
  obtain ⟨deps, nd, _, _, rfl, _, rfl⟩ := deduce_ok_iff hx
  have ht : (w1.comps i).target = some ((runOps w0 ops1).cache.heap.length,
      genCode ((runOps w0 ops1).comps i).name ((runOps w0 ops1).comps i).llhName (worksheet deps)
        (outNames a.dataNames a.force) a.funcName a.nodep) := by rw [hw1']; simp [setComp]
  have hc : w1.cache.cache.get? (w1.comps i).llhName = some (runOps w0 ops1).cache.heap.length := by
    rw [hw1']; simp [setComp]
  obtain ⟨h1, h2⟩ := live_runOps i _ _ ops2 hops hc ht
  intro hok
  simp only [Comp.step] at hok
  cases hy : deduce ((runOps w1 ops2).comps j) (runOps w1 ops2).cache b with
  | mk s r =>
    rw [hy] at hok
    simp only at hok
    subst hok
    obtain ⟨_, _, _, _, _, hnone, _⟩ := deduce_ok_iff (c' := s.1) (g' := s.2) hy
    rw [hsame, h1] at hnone
    cases hnone

/-- Non-vacuity of C16: two components sharing a likelihood name and one with another; the second deduce for the
shared name raises. -/
def exWorld : World := ⟨fun i => if i = 2 then { exComp with name := "nr", llhName := "m" }
  else { exComp with name := if i = 0 then "er" else "ac" }, {}⟩

example : Fresh exWorld ∧
    (step (runOps exWorld []) (.deduce 0 { dataNames := ["c"] })).2 = .ok () ∧
    (step (runOps exWorld [.deduce 0 { dataNames := ["c"] }]) (.deduce 1 { dataNames := ["b"] })).2
      = .error .runtimeError ∧
    (step (runOps exWorld [.deduce 0 { dataNames := ["c"] }]) (.deduce 2 { dataNames := ["b"] })).2
      = .ok () := by
  refine ⟨⟨rfl, ?_⟩, by decide, by decide, by decide⟩
  intro i
  simp only [exWorld]
  split <;> rfl

/-- **C16 (compile before deduce).** A component none of whose `deduce` calls succeeded cannot be compiled: AttributeError, and it
has no simulator. -/
theorem C16_compile_needs_deduce (w0 : World) (hw0 : Fresh w0) (ops : List Op) (i : Nat)
    (hd : ∀ pre a, pre ++ [.deduce i a] <+: ops → (step (runOps w0 pre) (.deduce i a)).2 ≠ .ok ()) :
    (step (runOps w0 ops) (.compile i)).2 = .error .attributeError ∧
      (((step (runOps w0 ops) (.compile i)).1.comps i).simulate = none ↔ (w0.comps i).simulate = none) := by
  have key : ((runOps w0 ops).comps i).target = none ∧ ((runOps w0 ops).comps i).simulate = (w0.comps i).simulate := by
    induction ops using List.reverseRecOn with
    | nil => exact ⟨hw0.2 i, rfl⟩
    | append_singleton ops o ih =>
      obtain ⟨h1, h2⟩ := ih (fun pre a h => hd pre a (h.trans (List.prefix_append _ _)))
      have hr : runOps w0 (ops ++ [o]) = (step (runOps w0 ops) o).1 := by simp [runOps]
      rw [hr]
      cases o with
      | clear => exact ⟨h1, h2⟩
      | compile j =>
        by_cases hj : i = j
        · subst hj
          simp only [step, setComp, if_true, compile, h1]
          exact ⟨trivial, h2⟩
        · simp only [step, setComp, if_neg hj]
          exact ⟨h1, h2⟩
      | deduce j a =>
        by_cases hj : i = j
        · subst hj
          have hne := hd ops a (List.prefix_refl _)
          simp only [step] at hne
          simp only [step, setComp, if_true]
          unfold deduce at hne ⊢
          simp only at hne ⊢
          split
          · exact ⟨h1, h2⟩
          · rename_i deps hdeps
            rw [hdeps] at hne
            simp only at hne
            split
            · exact ⟨h1, h2⟩
            · rename_i ws nd hnl
              rw [hnl] at hne
              simp only at hne
              split
              · exact ⟨h1, h2⟩
              · rename_i hh
                rw [if_neg hh] at hne
                exact absurd rfl hne
        · simp only [step, setComp, if_neg hj]
          exact ⟨h1, h2⟩
  simp only [step, setComp, if_true, compile, key.1]
  exact ⟨trivial, by rw [key.2]⟩

/-- Non-vacuity: after the deduce of component 1 another component with the same likelihood name fails to deduce and to compile. -/
example : (step (runOps exWorld [.deduce 0 { dataNames := ["c"] }, .deduce 1 { dataNames := ["b"] }]) (.compile 1)).2 =
    .error .attributeError := by decide

/-- C16 needs the absence of clearing: after clear and a deduce and compile of another component under the same
likelihood name, compiling the first component succeeds and gives it the other component's simulator. -/
theorem C16_clear_mixes_simulators :
    let w := runOps exWorld [.deduce 0 { dataNames := ["c"] }, .clear, .deduce 1 { dataNames := ["b"] },
      .compile 1]
    (step w (.compile 0)).2 = .ok () ∧
      ((step w (.compile 0)).1.comps 0).simulate.map (fun c => (c.compName, c.outs))
        = some ("ac", ["b", "eff"]) ∧
      (w.comps 0).code.map (fun c => (c.compName, c.outs)) = some ("er", ["c", "eff"]) := by decide

end Verif.Comp
