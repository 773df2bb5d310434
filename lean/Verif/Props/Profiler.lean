/-
Property theorems C60 about the profiler (profiler.py): it runs the data flow of the compiled simulator.

Specification vocabulary: `EvaluatesTimes` (`Verif/Spec/Profiler.lean`), `Reach` (`Verif/Spec/Deps.lean`).
-/
import Verif.Lemmas.Profiler
import Verif.Props.Component

namespace Verif.Comp
open Verif

/-- Every plugin of the worksheet is the one registered for its first output. -/
def FirstRegistered (reg : Registry) (ws : List Plugin) : Prop :=
  ∀ p ∈ ws, ∀ d, p.provides.head? = some d → reg.get? d = some p

/-- **C60.** Profiling a component that resolves from the batch size never looks up a missing value: it succeeds,
reports the worksheet line by line, and its data store holds one value per needed name such that each plugin,
called as often as requested on the values of its inputs, gives the values of its needed outputs. -/
theorem C60_profiling_runs_data_flow_partial {K V : Type} (reg : Registry) (fuel : Nat) (names : List String)
    (deps : List Entry) (h : deduceDeps reg "batch_size" fuel names [] = .ok deps)
    (hc : Consistent reg "batch_size" names) (hfirst : FirstRegistered reg (worksheet deps))
    (sem : Plugin → K → List V → Res (K × List V))
    (hsem : ∀ p ∈ worksheet deps, ∀ k args, args.length = p.dependsOn.length →
      ∃ k' outs, sem p k args = .ok (k', outs) ∧ outs.length = p.provides.length)
    (warmup runs : Nat) (hruns : 0 < warmup + runs) (key : K) (input : V) :
    ∃ (key' : K) (store : PyDict String V) (val : String → V),
      profileComponent reg (some ((worksheet deps).map Work.ofPlugin)) sem warmup runs key input
        = .ok (key', store, (worksheet deps).map (fun p => ⟨p.name, p.provides, p.dependsOn⟩)) ∧
      val "batch_size" = input ∧
      (∀ d, d = "batch_size" ∨ Reach reg "batch_size" names d → store.get? d = some (val d)) ∧
      EvaluatesTimes sem (warmup + runs) (Reach reg "batch_size" names) val (worksheet deps) key key' := by
  obtain ⟨n, hn⟩ : ∃ n, warmup + runs = n + 1 := ⟨warmup + runs - 1, by omega⟩
  obtain ⟨hnd, hnames, hmem, htopo⟩ :=
    C10_topological_order reg "batch_size" fuel names deps h hc.names_distinct
  have hnn : ¬ Reach reg "batch_size" names "batch_size" := fun hr => hr.ne rfl
  have hne : ∀ p ∈ worksheet deps, p.dependsOn ≠ [] ∧ p.provides ≠ [] := by
    intro p hp
    obtain ⟨d, hd, hg⟩ := (hmem p).1 hp
    exact ⟨hc.nonempty d p hd hg, List.ne_nil_of_mem (hc.provides d p hd hg)⟩
  have hpn : ∀ p ∈ worksheet deps, p.provides.Nodup :=
    fun p hp => let ⟨d, hd, hg⟩ := (hmem p).1 hp; hc.nodup d p hd hg
  obtain ⟨inst, _, hget⟩ := instantiate_ok ((worksheet deps).map (fun p => (p.name, p))) (worksheet deps)
    (fun p hp => PyDict.get?_of_mem _ (by simpa [PyDict.keys, List.map_map, Function.comp_def] using hnames)
      (List.mem_map.2 ⟨p, hp, rfl⟩)) hne hnames
  obtain ⟨key', env', hr, hin, _, hall, hev⟩ := runWorks_spec (reg := reg) (nodep := "batch_size") inst
    (repeatSem sem n) input (Reach reg "batch_size" names) (worksheet deps) hget
    (fun p hp k args ha => repeatSem_ok sem p args _ (fun k => hsem p hp k args ha) n k) hpn
    (fun p hp => let ⟨d, hd, hg⟩ := (hmem p).1 hp; hc.no_nodep d p hd hg)
    hnn
    (fun p hp d hd hn => let ⟨d0, hd0, hg⟩ := (hmem p).1 hp; hc.sole d0 p d hd0 hg hd hn)
    (fun d p hn hg => hc.provides d p hn hg)
    hnd htopo (worksheet deps) [] rfl key [("batch_size", input)] (by simp [PyDict.get?_cons]) (by simp)
  refine ⟨key', env', fun d => (env'.get? d).getD input, ?_, by simp [hin], ?_, ?_⟩
  · rw [profileComponent, profile_fold reg inst sem warmup runs n hn (worksheet deps) hget hfirst hne hpn key _ []
      (key', env') hr]
    simp
  · rintro d (rfl | hd)
    · simp [hin]
    · obtain ⟨p, hp⟩ := deduce_complete _ _ _ h d hd
      obtain ⟨v, hv⟩ := hall d p hd hp ((hmem p).2 ⟨d, hd, hp⟩)
      simp [hv]
  · rw [hn]; exact evaluates_times _ _ _ _ _ _ _ hev

/-- Non-vacuity of C60: the diamond, two warmup runs and one timed run per plugin, from key 3.  `A` last runs with
key 5, so `a`=50, `b`=51, `c`=5150. -/
example : FirstRegistered exReg [exA, exB, exE, exC] ∧
    profileComponent exReg (some ([exA, exB, exE, exC].map Work.ofPlugin)) exSem 2 1 3 100
      = .ok (15, [("batch_size", 100), ("a", 50), ("b", 51), ("b2", 0), ("eff", 7), ("c", 5150)],
          [⟨"A", ["a"], ["batch_size"]⟩, ⟨"B", ["b", "b2"], ["a"]⟩, ⟨"E", ["eff"], ["batch_size"]⟩,
           ⟨"C", ["c"], ["a", "b"]⟩]) := by
  refine ⟨?_, by decide⟩
  intro p hp d hd
  exact (by decide : ∀ p ∈ [exA, exB, exE, exC], ∀ d ∈ p.provides, exReg.get? d = some p) p hp d
    (List.mem_of_mem_head? hd)

/-- **C60.** With one call per plugin the profiler computes exactly what the compiled simulator computes from the
same key: the same final key and the same requested data. -/
theorem C60_single_run_is_simulation_partial {K V : Type} (reg : Registry) (fuel : Nat) (names : List String)
    (deps : List Entry) (h : deduceDeps reg "batch_size" fuel names [] = .ok deps)
    (hc : Consistent reg "batch_size" names) (hfirst : FirstRegistered reg (worksheet deps))
    (ns : PyDict String Plugin) (hns : ∀ p ∈ worksheet deps, ns.get? p.name = some p)
    (sem : Plugin → K → List V → Res (K × List V))
    (hsem : ∀ p ∈ worksheet deps, ∀ k args, args.length = p.dependsOn.length →
      ∃ k' outs, sem p k args = .ok (k', outs) ∧ outs.length = p.provides.length)
    (compName llhName funcName : String) (warmup runs : Nat) (hruns : warmup + runs = 1) (key : K) (input : V) :
    ∃ (key' : K) (store : PyDict String V) (lines : List ProfileLine) (outs : List V),
      profileComponent reg (some ((worksheet deps).map Work.ofPlugin)) sem warmup runs key input
        = .ok (key', store, lines) ∧
      (genCode compName llhName (worksheet deps) names funcName "batch_size").run ns sem key input
        = .ok (key', outs) ∧
      names.map (fun d => store.get? d) = outs.map some := by
  obtain ⟨k1, store, val, h1, h2, h3, h4⟩ :=
    C60_profiling_runs_data_flow_partial reg fuel names deps h hc hfirst sem hsem warmup runs (by omega) key input
  obtain ⟨k2, val', g1, g2, g3⟩ := C11_generated_code_computes_data_flow reg "batch_size" fuel names deps h hc ns
    sem hns hsem compName llhName funcName key input
  rw [hruns] at h4
  have h4' : Evaluates sem (Reach reg "batch_size" names) val (worksheet deps) key k1 := by
    clear h1 h3 g1 g3 hns hsem hfirst
    generalize worksheet deps = ws at h4
    induction h4 with
    | nil => exact .nil
    | cons c1 c2 _ ih =>
      cases c1 with
      | once c => exact .cons c c2 ih
      | more _ c => cases c
  obtain ⟨hk, hv⟩ := C11_values_unique reg "batch_size" fuel names deps h hc sem val val' key k1 k2
    (h2.trans g2.symm) h4' g3
  subst hk
  refine ⟨k1, store, _, _, h1, g1, ?_⟩
  rw [List.map_map]
  apply List.map_congr_left
  intro d hd
  by_cases hne : d = "batch_size"
  · rw [h3 d (Or.inl hne)]; simp [hne, h2, g2]
  · have hr : Reach reg "batch_size" names d := .root hd hne
    rw [h3 d (Or.inr hr)]; simp [hv d hr]

/-- **C60.** However many calls are made, if the outputs of the plugins do not depend on the random key then the
profiler computes the requested data of the compiled simulator (started from any key). -/
theorem C60_deterministic_same_data_partial {K V : Type} (reg : Registry) (fuel : Nat) (names : List String)
    (deps : List Entry) (h : deduceDeps reg "batch_size" fuel names [] = .ok deps)
    (hc : Consistent reg "batch_size" names) (hfirst : FirstRegistered reg (worksheet deps))
    (ns : PyDict String Plugin) (hns : ∀ p ∈ worksheet deps, ns.get? p.name = some p)
    (sem : Plugin → K → List V → Res (K × List V))
    (hsem : ∀ p ∈ worksheet deps, ∀ k args, args.length = p.dependsOn.length →
      ∃ k' outs, sem p k args = .ok (k', outs) ∧ outs.length = p.provides.length)
    (hdet : ∀ p k1 k2 args r1 r2, sem p k1 args = .ok r1 → sem p k2 args = .ok r2 → r1.2 = r2.2)
    (compName llhName funcName : String) (warmup runs : Nat) (hruns : 0 < warmup + runs) (key simKey : K)
    (input : V) :
    ∃ (key' : K) (simKey' : K) (store : PyDict String V) (lines : List ProfileLine) (outs : List V),
      profileComponent reg (some ((worksheet deps).map Work.ofPlugin)) sem warmup runs key input
        = .ok (key', store, lines) ∧
      (genCode compName llhName (worksheet deps) names funcName "batch_size").run ns sem simKey input
        = .ok (simKey', outs) ∧
      names.map (fun d => store.get? d) = outs.map some := by
  obtain ⟨k1, store, val, h1, h2, h3, h4⟩ :=
    C60_profiling_runs_data_flow_partial reg fuel names deps h hc hfirst sem hsem warmup runs hruns key input
  obtain ⟨k2, val', g1, g2, g3⟩ := C11_generated_code_computes_data_flow reg "batch_size" fuel names deps h hc ns
    sem hns hsem compName llhName funcName simKey input
  obtain ⟨_, _, hmem, htopo⟩ := C10_topological_order reg "batch_size" fuel names deps h hc.names_distinct
  have hcalled : ∀ p args n (k k' kk kk' : K) (outs o : List V), CalledTimes sem p args n k k' outs →
      sem p kk args = .ok (kk', o) → outs = o := by
    intro p args n k k' kk kk' outs o hct hs
    induction hct with
    | once c => exact hdet p _ _ args _ _ c hs
    | more _ _ ih => exact ih
  have gen : ∀ (rest pre : List Plugin) (key simKey : K), worksheet deps = pre ++ rest →
      (∀ d q, Reach reg "batch_size" names d → reg.get? d = some q → q ∈ pre → val d = val' d) →
      EvaluatesTimes sem (warmup + runs) (Reach reg "batch_size" names) val rest key k1 →
      Evaluates sem (Reach reg "batch_size" names) val' rest simKey k2 →
      ∀ d q, Reach reg "batch_size" names d → reg.get? d = some q → q ∈ worksheet deps → val d = val' d := by
    intro rest
    induction rest with
    | nil =>
      intro pre key simKey hs hpre _ _ d q hd hg hq
      exact hpre d q hd hg (by rw [hs] at hq; simpa using hq)
    | cons p rest ih =>
      intro pre key simKey hs hpre e1 e2
      cases e1 with
      | cons s1 o1 e1 =>
        cases e2 with
        | cons s2 o2 e2 =>
          have hargs : p.dependsOn.map val = p.dependsOn.map val' := by
            apply List.map_congr_left
            intro e he
            rcases htopo pre p rest hs e he with rfl | ⟨hr, q, hq, hg⟩
            · exact h2.trans g2.symm
            · exact hpre e q hr hg hq
          rw [hargs] at s1
          have heq := hcalled _ _ _ _ _ _ _ _ _ s1 s2
          subst heq
          refine ih (pre ++ [p]) _ _ (by simp [hs]) ?_ e1 e2
          intro d q hd hg hq
          rcases List.mem_append.1 hq with hq | hq
          · exact hpre d q hd hg hq
          · rw [List.mem_singleton] at hq; subst hq
            obtain ⟨i, hi⟩ := List.getElem?_of_mem (hc.provides d q hd hg)
            have a1 := o1 i d hi hd
            have a2 := o2 i d hi hd
            rw [a1] at a2
            exact Option.some.inj a2
  refine ⟨k1, k2, store, _, _, h1, g1, ?_⟩
  rw [List.map_map]
  apply List.map_congr_left
  intro d hd
  by_cases hne : d = "batch_size"
  · rw [h3 d (Or.inl hne)]; simp [hne, h2, g2]
  · have hr : Reach reg "batch_size" names d := .root hd hne
    obtain ⟨p, hp⟩ := deduce_complete _ _ _ h d hr
    rw [h3 d (Or.inr hr)]
    simp [gen (worksheet deps) [] key simKey rfl (by simp) h4 g3 d p hr hp ((hmem p).2 ⟨d, hr, hp⟩)]

/-- Without the hypothesis on first outputs the profiler fails on a component that simulates: `P` provides `a` and
`b`, `Q`, registered later, provides `a` alone.  Requesting `c`, computed from `b`, needs `P`; the profiler runs `Q`
instead, and the lookup of `b` raises KeyError. -/
theorem C60_first_output_overridden :
    let P : Plugin := ⟨"P", ["a", "b"], ["batch_size"], [], []⟩
    let Q : Plugin := ⟨"Q", ["a"], ["batch_size"], [], []⟩
    let R : Plugin := ⟨"R", ["c"], ["b"], [], []⟩
    let reg : Registry := (registerAll [] [P, Q, R]).1
    let sem : Plugin → Nat → List Nat → Res (Nat × List Nat) := fun p k _ =>
      .ok (k, p.provides.map (fun _ => 1))
    ((deduceDeps reg "batch_size" 9 ["c"] []).map worksheet).bind
      (fun ws => (genCode "n" "l" ws ["c"] "simulate" "batch_size").run
        [("P", P), ("Q", Q), ("R", R)] sem 0 0) = .ok (0, [1]) ∧
    ((deduceDeps reg "batch_size" 9 ["c"] []).map worksheet).bind
      (fun ws => profileComponent reg (some (ws.map Work.ofPlugin)) sem 2 10 0 0) = .error .keyError := by
  decide

/-- A component deduced from another no-dependency name simulates but cannot be profiled: the data store only holds
the batch size. -/
theorem C60_other_input_name :
    let P : Plugin := ⟨"P", ["a"], ["energy"], [], []⟩
    let reg : Registry := (registerAll [] [P]).1
    let sem : Plugin → Nat → List Nat → Res (Nat × List Nat) := fun _ k args => .ok (k, args)
    ((deduceDeps reg "energy" 9 ["a"] []).map worksheet).bind
      (fun ws => (genCode "n" "l" ws ["a"] "simulate" "energy").run [("P", P)] sem 0 5) = .ok (0, [5]) ∧
    ((deduceDeps reg "energy" 9 ["a"] []).map worksheet).bind
      (fun ws => profileComponent reg (some (ws.map Work.ofPlugin)) sem 2 10 0 5) = .error .keyError := by
  decide

/-- **C60 (missing value).** If the lines before have been profiled and the next plugin needs data that is not in the store, the
profiler raises `KeyError`, whatever lines follow. -/
theorem C60_missing_value {K V : Type} (reg : Registry) (sem : Plugin → K → List V → Res (K × List V)) (warmup runs : Nat)
    (key k : K) (input : V) (pre post : List Work) (store : PyDict String V) (lines : List ProfileLine)
    (hpre : profileComponent reg (some pre) sem warmup runs key input = .ok (k, store, lines))
    (w : Work) (d : String) (hd : w.provides.head? = some d) (p : Plugin) (hp : reg.get? d = some p) (hprov : p.provides ≠ [])
    (x : String) (hx : x ∈ p.dependsOn) (hstore : store.get? x = none) :
    profileComponent reg (some (pre ++ w :: post)) sem warmup runs key input = .error .keyError := by
  have hm : ∀ l : List String, x ∈ l → l.mapM (readData store) = .error .keyError := by
    intro l
    induction l with
    | nil => simp
    | cons a l ih =>
      intro h
      rw [List.mapM_cons]
      rcases hg : store.get? a with _ | v
      · simp [readData, PyDict.getItem, hg, Bind.bind, Except.bind]
      · have hxl : x ∈ l := by
          rcases List.mem_cons.1 h with rfl | h
          · rw [hstore] at hg; cases hg
          · exact h
        rw [ih hxl]
        simp [readData, PyDict.getItem, hg, Bind.bind, Except.bind]
  obtain ⟨l, hl⟩ : ∃ l, w.provides = d :: l := by
    cases hw : w.provides with
    | nil => rw [hw] at hd; cases hd
    | cons a l => rw [hw] at hd; cases hd; exact ⟨l, rfl⟩
  have hdep : p.dependsOn ≠ [] := List.ne_nil_of_mem hx
  simp only [profileComponent] at hpre ⊢
  rw [List.foldlM_append, hpre]
  simp [Bind.bind, Except.bind, profileWork, hl, PyDict.getItem, hp, hdep, hprov, profilePlugin, hm p.dependsOn hx]

/-- Non-vacuity of C60_missing_value: `A` has been profiled, and the line of `C` comes before that of `B`, whose output it needs. -/
example : profileComponent exReg (some ([exA].map Work.ofPlugin)) exSem 2 1 3 100
      = .ok (6, [("batch_size", 100), ("a", 50)], [⟨"A", ["a"], ["batch_size"]⟩]) ∧
    exReg.get? "c" = some exC ∧ "b" ∈ exC.dependsOn ∧
    profileComponent exReg (some ([exA, exC, exB].map Work.ofPlugin)) exSem 2 1 3 100 = .error .keyError := by decide

/-- Profiling with no warmup and no timed run raises UnboundLocalError for every component that has a plugin to
run; a component without a worksheet raises RuntimeError. -/
theorem C60_no_runs {K V : Type} (reg : Registry) (fuel : Nat) (names : List String)
    (deps : List Entry) (h : deduceDeps reg "batch_size" fuel names [] = .ok deps)
    (hc : Consistent reg "batch_size" names) (hfirst : FirstRegistered reg (worksheet deps))
    (sem : Plugin → K → List V → Res (K × List V)) (key : K) (input : V)
    (hsome : ∃ d ∈ names, d ≠ "batch_size") :
    profileComponent reg (some ((worksheet deps).map Work.ofPlugin)) sem 0 0 key input = .error .unboundLocal ∧
    profileComponent reg none sem 0 0 key input = .error .runtimeError := by
  refine ⟨?_, rfl⟩
  obtain ⟨hnd, hnames, hmem, htopo⟩ :=
    C10_topological_order reg "batch_size" fuel names deps h hc.names_distinct
  obtain ⟨d, hd, hne⟩ := hsome
  have hr : Reach reg "batch_size" names d := .root hd hne
  obtain ⟨p, hp⟩ := deduce_complete _ _ _ h d hr
  have hpw := (hmem p).2 ⟨d, hr, hp⟩
  cases hw : worksheet deps with
  | nil => rw [hw] at hpw; simp at hpw
  | cons q ws =>
    have hq : q ∈ worksheet deps := by rw [hw]; simp
    obtain ⟨d', hd', hg'⟩ := (hmem q).1 hq
    have hdep := htopo [] q ws (by simp [hw])
    have hread : q.dependsOn.mapM (readData [("batch_size", input)]) = .ok (q.dependsOn.map (fun _ => input)) := by
      apply mapM_ok_of_forall
      intro e he
      rcases hdep e he with rfl | ⟨_, x, hx, _⟩
      · simp [readData, PyDict.getItem, PyDict.get?_cons]
      · simp at hx
    have hq1 := hc.nonempty d' q hd' hg'
    cases hqp : q.provides with
    | nil => have := hc.provides d' q hd' hg'; rw [hqp] at this; simp at this
    | cons e es =>
      have hg : reg.getItem e = .ok q := by
        unfold PyDict.getItem
        rw [hfirst q hq e (by rw [hqp]; rfl)]
      simp only [profileComponent, List.map_cons, List.foldlM_cons, bind, Except.bind]
      unfold profileWork
      simp only [Work.ofPlugin, hqp, bind, Except.bind, hg]
      rw [if_neg (by simp [hq1])]
      simp only [profilePlugin, hread, bind, Except.bind, profileRuns, hqp, collect]

/-- **C60 (whole context).** If no likelihood name contains a slash, names are distinct and profiling each
component succeeds, then `profile_context` reports every simulated component of every likelihood exactly once, in
order, under `likelihood/component`, with the result of that component. -/
theorem C60_context_reports_each_component {R : Type} (llhs : List (String × List (String × Option (Res R))))
    (hok : ∀ l ∈ llhs, ∀ c ∈ l.2, ∀ e, c.2 ≠ some (.error e))
    (hl : (llhs.map Prod.fst).Nodup) (hcn : ∀ l ∈ llhs, (l.2.map Prod.fst).Nodup)
    (hs : ∀ l ∈ llhs, '/' ∉ l.1.toList) :
    profileContext llhs = .ok ((profiled llhs).map (fun x => (x.1.1 ++ "/" ++ x.1.2, x.2))) := by
  rw [profileContext_eq llhs hok, PyDict.ofList_of_nodup]
  rw [List.map_map]
  have hmem : ∀ x ∈ profiled llhs, '/' ∉ x.1.1.toList := by
    intro x hx
    simp only [profiled, List.mem_flatMap, List.mem_filterMap] at hx
    obtain ⟨l, hl, c, _, hc⟩ := hx
    split at hc
    · simp only [Option.some.injEq] at hc; subst hc; exact hs l hl
    · cases hc
  have hnd : ((profiled llhs).map Prod.fst).Nodup := by
    clear hs hmem hok
    induction llhs with
    | nil => simp [profiled]
    | cons l ls ih =>
      rw [profiled, List.flatMap_cons, List.map_append, List.nodup_append]
      simp only [List.map_cons, List.nodup_cons] at hl
      refine ⟨?_, ih hl.2 (fun l' h => hcn l' (by simp [h])), ?_⟩
      · have hsub : ((l.2.filterMap (fun c => match c.2 with
            | some (.ok r) => some ((l.1, c.1), r)
            | _ => none)).map (fun x : (String × String) × R => x.1)).Sublist
            (l.2.map (fun c => (l.1, c.1))) := by
          generalize l.2 = cs
          induction cs with
          | nil => simp
          | cons c cs ih2 =>
            obtain ⟨cn, o⟩ := c
            match o with
            | none => simpa using ih2.cons _
            | some (.error e) => simpa using ih2.cons _
            | some (.ok r) => simpa using ih2
        refine hsub.nodup ?_
        have := hcn l (by simp)
        rw [← List.nodup_map_iff (f := fun n : String => (l.1, n)) (by intro a b h; simpa using h)] at this
        simpa [List.map_map, Function.comp_def] using this
      · intro a ha b hb hab
        subst hab
        simp only [List.mem_map, List.mem_filterMap, List.mem_flatMap] at ha hb
        obtain ⟨x, ⟨c, _, hc⟩, rfl⟩ := ha
        obtain ⟨y, ⟨l', hl', c', _, hc'⟩, hy⟩ := hb
        have h1 : x.1.1 = l.1 := by
          split at hc
          · simp only [Option.some.injEq] at hc; subst hc; rfl
          · cases hc
        have h2 : y.1.1 = l'.1 := by
          split at hc'
          · simp only [Option.some.injEq] at hc'; subst hc'; rfl
          · cases hc'
        exact hl.1 (List.mem_map.2 ⟨l', hl', by rw [← h2, hy, h1]⟩)
  rw [List.nodup_map_iff_inj_on (List.Nodup.of_map _ hnd)]
  intro x hx y hy hxy
  obtain ⟨h1, h2⟩ := key_injective _ _ _ _ (hmem x hx) (hmem y hy) hxy
  exact List.inj_on_of_nodup_map hnd hx hy (Prod.ext h1 h2)

/-- Non-vacuity: two likelihoods, one with a fixed component that is skipped. -/
example : profileContext [("rn", [("er", some (.ok 1)), ("ac", none)]), ("ar", [("er", some (.ok 2))])]
    = .ok [("rn/er", 1), ("ar/er", 2)] := by decide

/-- With slashes in names the claim fails: two components of different likelihoods share a key and one result is
lost. -/
theorem C60_context_key_collision :
    profileContext [("a", [("b/c", some (.ok 1))]), ("a/b", [("c", some (.ok 2))])]
      = .ok [("a/b/c", 2)] := by decide

end Verif.Comp
