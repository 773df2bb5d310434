/-
Property theorems C104: the printed summaries show what is registered.
-/
import Verif.Lemmas.Summary
import Verif.Props.Likelihood

namespace Verif.Summary
open Verif

/-- **C104 (components).** The summary of a likelihood lists every component once, in the order of registration, numbered from zero. -/
theorem C104_components (short : Bool) (h : Head) (cs : List (String × Info)) :
    components (likelihoodSummary short h cs) = cs.zipIdx.map (fun c => (c.2, c.1.1)) := by
  have loop : ∀ i, components (printComponents short i cs) = (cs.zipIdx i).map (fun c => (c.2, c.1.1)) := by
    induction cs with
    | nil => intro i; rfl
    | cons c cs ih =>
      intro i
      obtain ⟨n, c⟩ := c
      have hc : components (componentLines short i n c) = [(i, n)] := by
        unfold componentLines components
        cases c.kind <;> cases short <;> simp
      have happ : ∀ a b, components (a ++ b) = components a ++ components b := fun a b => List.filterMap_append
      simp only [printComponents, happ, hc, ih, List.zipIdx_cons, List.map_cons, List.singleton_append]
  have happ : ∀ a b, components (a ++ b) = components a ++ components b := fun a b => List.filterMap_append
  unfold likelihoodSummary
  rw [happ, happ, happ, loop]
  cases h with
  | binned => cases short <;> simp [components]
  | lit t on args => simp [components, Function.comp_def]

/-- **C104 (parameters).** The parameters shown are those of the components that simulate or read a file, in the order of
registration. -/
theorem C104_parameters (short : Bool) (h : Head) (cs : List (String × Info)) :
    parameters (likelihoodSummary short h cs) = (cs.filter (fun c => c.2.kind ≠ .other)).map (fun c => c.2.needed) := by
  have happ : ∀ a b, parameters (a ++ b) = parameters a ++ parameters b := fun a b => List.filterMap_append
  have loop : ∀ i, parameters (printComponents short i cs) = (cs.filter (fun c => c.2.kind ≠ .other)).map (fun c => c.2.needed) := by
    induction cs with
    | nil => intro i; rfl
    | cons c cs ih =>
      intro i
      obtain ⟨n, c⟩ := c
      simp only [printComponents, happ, ih, List.filter_cons]
      unfold componentLines parameters
      cases hk : c.kind <;> cases short <;> simp
  unfold likelihoodSummary
  rw [happ, happ, happ, loop]
  cases h with
  | binned => cases short <;> simp [parameters]
  | lit t on args => simp [parameters, Function.comp_def]

/-- **C104 (entries).** In the order of registration, the list of components says of each one that simulates or reads a file that it
does so, the name of its rate, and the file it reads. -/
theorem C104_entries (short : Bool) (i : Nat) (cs : List (String × Info)) :
    entries "type" (printComponents short i cs) = cs.filterMap (fun c => kindWord c.2.kind) ∧
    entries "rate_par" (printComponents short i cs) = (cs.filter (fun c => c.2.kind ≠ .other)).map (fun c => c.2.rate) ∧
    entries "file_name" (printComponents short i cs) = cs.filterMap (fun c => fileName c.2.kind) := by
  have happ : ∀ l a b, entries l (a ++ b) = entries l a ++ entries l b := fun l a b => List.filterMap_append
  induction cs generalizing i with
  | nil => exact ⟨rfl, rfl, rfl⟩
  | cons c cs ih =>
    obtain ⟨n, c⟩ := c
    obtain ⟨h1, h2, h3⟩ := ih (i + 1)
    simp only [printComponents, happ, h1, h2, h3, List.filter_cons, List.filterMap_cons]
    unfold componentLines entries
    cases hk : c.kind <;> cases short <;> simp [kindWord, fileName]

/-- Non-vacuity of C104_entries. -/
example : entries "type" (printComponents true 0 [("er", ⟨.sim "", "er_rate", ["g1"]⟩), ("ac", ⟨.fixed "ac.csv", "ac_rate", []⟩)]) =
    ["simulation", "fixed"] := by decide

/-- The list of components has no lines of the first part. -/
theorem headEntries_components (label : String) (short : Bool) (i : Nat) (cs : List (String × Info)) :
    headEntries label (printComponents short i cs) = [] := by
  have happ : ∀ l a b, headEntries l (a ++ b) = headEntries l a ++ headEntries l b := fun l a b => List.filterMap_append
  induction cs generalizing i with
  | nil => rfl
  | cons c cs ih =>
    obtain ⟨n, c⟩ := c
    simp only [printComponents, happ, ih]
    unfold componentLines headEntries
    cases hk : c.kind <;> cases short <;> simp

/-- **C104 (binned data).** The summary of a likelihood with binned data shows the kind of bins, the observables, the data file and
the number of events in the histogram, each once and after its own label, and the bins unless it is short. -/
theorem C104_binned (short : Bool) (binsType binsOn bins file rate : String) (cs : List (String × Info)) :
    let out := likelihoodSummary short (.binned binsType binsOn bins file rate) cs
    headEntries "bins_type" out = [binsType] ∧ headEntries "bins_on" out = [binsOn] ∧ headEntries "file_name" out = [file] ∧
    headEntries "data_rate" out = [rate] ∧ headEntries "bins" out = (if short then [] else [bins]) := by
  have happ : ∀ l a b, headEntries l (a ++ b) = headEntries l a ++ headEntries l b := fun l a b => List.filterMap_append
  simp only [likelihoodSummary, happ, headEntries_components]
  cases short <;> simp [headEntries]

/-- **C104 (literature).** The summary of a literature likelihood shows the kind of variable, the variable and every argument of
the density with its value, in order. -/
theorem C104_literature (short : Bool) (variableType variable_ : String) (args : List (String × String)) (cs : List (String × Info)) :
    let out := likelihoodSummary short (.lit variableType variable_ args) cs
    headEntries "variable_type" out = [variableType] ∧ headEntries "variable" out = [variable_] ∧ arguments out = args := by
  have happ : ∀ l a b, headEntries l (a ++ b) = headEntries l a ++ headEntries l b := fun l a b => List.filterMap_append
  have hargs : ∀ l, headEntries l (args.map (fun kv => Line.entry 2 kv.1 kv.2)) = [] := by
    intro l
    induction args with
    | nil => rfl
    | cons a as ih =>
      rw [List.map_cons, show ∀ (x : Line) xs, x :: xs = [x] ++ xs from fun _ _ => rfl, happ, ih]
      rfl
  refine ⟨?_, ?_, ?_⟩
  · simp only [likelihoodSummary, happ, headEntries_components, hargs]
    simp [headEntries]
  · simp only [likelihoodSummary, happ, headEntries_components, hargs]
    simp [headEntries]
  · have hw : ∀ rest : List Line, ((args.map (fun kv => Line.entry 2 kv.1 kv.2)) ++ (Line.rule true '-' 40 :: Line.title "MODEL" :: rest)).takeWhile
        (fun l => decide (l ≠ .title "MODEL")) = args.map (fun kv => Line.entry 2 kv.1 kv.2) ++ [Line.rule true '-' 40] := by
      intro rest
      clear hargs
      induction args with
      | nil => simp
      | cons a as ih =>
        simp only [List.map_cons, List.cons_append]
        rw [List.takeWhile_cons_of_pos (by simp), ih]
    have hm : ∀ as : List (String × String), (as.map (fun kv => Line.entry 2 kv.1 kv.2)).filterMap
        (fun | .entry 2 l v => some (l, v) | _ => none) = as := by
      intro as
      induction as with
      | nil => rfl
      | cons a as ih => simp [ih]
    unfold arguments likelihoodSummary
    simp only [List.cons_append, List.nil_append, List.append_assoc]
    iterate 7 rw [List.takeWhile_cons_of_pos (by simp)]
    rw [hw]
    simp [List.filterMap_append, hm]

/-- Non-vacuity of C104 (literature). -/
example : arguments (likelihoodSummary true (.lit "ly" "energy" [("mean", "[1, 2]"), ("std", "[3, 4]")])
    [("er", ⟨.fixed "a.csv", "er_rate", []⟩)]) = [("mean", "[1, 2]"), ("std", "[3, 4]")] := by decide +kernel

/-- **C104 (nothing is hidden).** Two lists of components, each simulating or reading a file, that print the same long summary are the
same: names, classes, rates, parameters, worksheets and files can all be read from it. -/
theorem C104_determines (i : Nat) (cs cs' : List (String × Info)) (h1 : ∀ c ∈ cs, c.2.kind ≠ .other) (h2 : ∀ c ∈ cs', c.2.kind ≠ .other)
    (h : printComponents false i cs = printComponents false i cs') : cs = cs' := by
  induction cs generalizing i cs' with
  | nil =>
    cases cs' with
    | nil => rfl
    | cons c cs' => simp [printComponents, componentLines] at h
  | cons c cs ih =>
    cases cs' with
    | nil => simp [printComponents, componentLines] at h
    | cons c' cs' =>
      obtain ⟨n, k, r, ns⟩ := c
      obtain ⟨n', k', r', ns'⟩ := c'
      have hk := h1 _ (List.mem_cons_self ..)
      have hk' := h2 _ (List.mem_cons_self ..)
      have ih' := fun h => ih (i + 1) cs' (fun c hc => h1 c (List.mem_cons_of_mem _ hc)) (fun c hc => h2 c (List.mem_cons_of_mem _ hc)) h
      cases k <;> cases k' <;> simp_all [printComponents, componentLines]

/-- **C104 (context).** The summary of a context that passes its check lists its likelihoods in their order and, one after the other,
the components of each. -/
theorem C104_context {K : Type} (short : Bool) (c : Ctx.Ctx K) (ls : List (String × Head × List (String × Info)))
    (hok : ∀ p ∈ c.pm.vals.keys, p ∈ c.needed) :
    (contextSummary short c ls).2 = .ok () ∧ likelihoods (contextSummary short c ls).1 = ls.map Prod.fst ∧
    components (contextSummary short c ls).1 = ls.flatMap (fun l => l.2.2.zipIdx.map (fun c => (c.2, c.1.1))) := by
  have e : contextSummary short c ls = (.rule true '=' 40 :: summaryLoop short ls, .ok ()) := by
    unfold contextSummary Ctx.sanityCheck
    rw [if_pos hok]
  rw [e]
  refine ⟨rfl, ?_, ?_⟩
  · have happ : ∀ a b, likelihoods (a ++ b) = likelihoods a ++ likelihoods b := fun a b => List.filterMap_append
    have one : ∀ h cs, likelihoods (likelihoodSummary short h cs) = [] := by
      intro h cs
      have loop : ∀ i, likelihoods (printComponents short i cs) = [] := by
        induction cs with
        | nil => intro i; rfl
        | cons c cs ih =>
          intro i
          simp only [printComponents, happ, ih]
          unfold componentLines likelihoods
          cases c.2.kind <;> cases short <;> simp
      unfold likelihoodSummary
      rw [happ, happ, happ, loop]
      cases h with
      | binned => cases short <;> simp [likelihoods]
      | lit t on args => simp [likelihoods, Function.comp_def]
    show likelihoods (summaryLoop short ls) = _
    clear e
    induction ls with
    | nil => rfl
    | cons l ls ih =>
      have := ih
      show l.1 :: likelihoods (likelihoodSummary short l.2.1 l.2.2 ++ .rule true '=' 40 :: summaryLoop short ls) = _
      rw [happ, one]
      show l.1 :: likelihoods (summaryLoop short ls) = _
      rw [this]; rfl
  · have happ : ∀ a b, components (a ++ b) = components a ++ components b := fun a b => List.filterMap_append
    show components (summaryLoop short ls) = _
    clear e
    induction ls with
    | nil => rfl
    | cons l ls ih =>
      have := ih
      show components (likelihoodSummary short l.2.1 l.2.2 ++ .rule true '=' 40 :: summaryLoop short ls) = _
      rw [happ, C104_components, List.flatMap_cons, ← this]
      rfl

/-- **C104 (failed check).** A context that provides a parameter nobody needs prints nothing and raises RuntimeError. -/
theorem C104_failed_check {K : Type} (short : Bool) (c : Ctx.Ctx K) (ls : List (String × Head × List (String × Info))) (p : String)
    (hp : p ∈ c.pm.vals.keys) (hn : p ∉ c.needed) : contextSummary short c ls = ([], .error .runtimeError) := by
  unfold contextSummary Ctx.sanityCheck
  rw [if_neg (fun h => hn (h p hp))]

/-- What is registered was built by one of the registrations. -/
theorem mem_registerAll {K V : Type} (al : PyDict String String) (regs : List (String × Res (Llh.LComp K V))) (n : String)
    (c : Llh.LComp K V) (h : (n, c) ∈ (Llh.registerAll al regs).components) : (n, .ok c) ∈ regs := by
  induction regs using List.reverseRecOn with
  | nil => simp [Llh.registerAll] at h
  | append_singleton regs r ih =>
    have hstep : Llh.registerAll al (regs ++ [r]) = (Llh.register al (Llh.registerAll al regs) r.1 r.2).1 := by
      simp [Llh.registerAll]
    rw [hstep] at h
    cases hr : Llh.register al (Llh.registerAll al regs) r.1 r.2 with
    | mk s' res =>
    rw [hr] at h
    cases res with
    | error e => rw [Llh.register_error hr] at h; exact List.mem_append_left _ (ih h)
    | ok u =>
      obtain ⟨c', hc, hn, rfl⟩ := Llh.register_ok hr
      rcases List.mem_append.1 h with h | h
      · exact List.mem_append_left _ (ih h)
      · simp only [List.mem_singleton, Prod.mk.injEq] at h
        obtain ⟨rfl, rfl⟩ := h
        exact List.mem_append_right _ (by rw [← hc]; simp)

/-- **C104 (needed parameters).** Without aliases, the parameters shown are together the parameters the likelihood needs. -/
theorem C104_needed_partial {K V : Type} (short : Bool) (h : Head) (what : String → String) (regs : List (String × Res (Llh.LComp K V)))
    (hk : ∀ r ∈ regs, ∀ ns, r.2 ≠ .ok (.other ns)) (x : String) :
    let st := Llh.registerAll [] regs
    x ∈ st.needed ↔ ∃ ns ∈ parameters (likelihoodSummary short h (st.components.map (fun c => (c.1, infoOf what c.1 c.2)))), x ∈ ns := by
  intro st
  rw [Llh.C35_needed_parameters [] ⟨by simp [PyDict.keys], by simp [PyDict.keys], by simp⟩ regs x, C104_parameters]
  have hoth : ∀ n c, (n, c) ∈ st.components → (infoOf what n c).kind ≠ .other := by
    intro n c hc
    have hm := mem_registerAll [] regs n c hc
    cases c with
    | other ns => exact absurd rfl (hk (n, .ok (.other ns)) hm ns)
    | sim => simp [infoOf]
    | fixed => simp [infoOf]
  have hcn : ∀ p, Llh.callerName [] p = p := fun p => rfl
  simp only [hcn, List.mem_map, List.mem_filter]
  constructor
  · rintro ⟨n, c, p, hc, hp, rfl⟩
    refine ⟨c.needed, ⟨(n, infoOf what n c), ⟨⟨(n, c), hc, rfl⟩, by simpa using hoth n c hc⟩, rfl⟩, hp⟩
  · rintro ⟨ns, ⟨_, ⟨⟨⟨n, c⟩, hc, rfl⟩, _⟩, rfl⟩, hx⟩
    exact ⟨n, c, x, hc, hx, rfl⟩

/-- **C104 (aliases, violated).** With an alias the summary shows the name the component uses.  The likelihood does not need that name,
and a context that provides it, as the summary suggests, is refused: not even the summary is printed. -/
theorem C104_alias_not_shown {K V : Type} (short : Bool) (h : Head) (what : String → String) (k v n : String) (hkv : k ≠ v)
    (hist weighted : K → Int → PyDict String V → Res (K × Llh.Grid V)) (c : Ctx.Ctx K) (ls : List (String × Head × List (String × Info)))
    (hv : v ∈ c.pm.vals.keys) :
    let st := Llh.registerAll [(k, v)] [(n, .ok (.sim [v] hist weighted))]
    parameters (likelihoodSummary short h (st.components.map (fun c => (c.1, infoOf what c.1 c.2)))) = [[v]] ∧ st.needed = [k] ∧
    (c.needed = st.needed → contextSummary short c ls = ([], .error .runtimeError)) := by
  intro st
  have hst : st = { components := [(n, .sim [v] hist weighted)], needed := [k] } := by
    simp [st, Llh.registerAll, Llh.register, PyDict.has, PyDict.get?, PyDict.set, Llh.aliasNeeded, Llh.LComp.needed, hkv]
  rw [hst]
  refine ⟨?_, rfl, fun hc => ?_⟩
  · rw [C104_parameters]
    simp [infoOf, Llh.LComp.needed]
  · refine C104_failed_check short c ls v hv ?_
    rw [hc]
    simpa using Ne.symm hkv

/-- **C104 (worksheet).** The table has one row for each plugin, in the order of execution, numbered from one. -/
theorem C104_worksheet (name : String) (ws : List (String × List String × List String)) :
    rows (printWorksheet name (some ws)) = (ws.zipIdx 1).map (fun w => (w.2, w.1)) := by
  have loop : ∀ i, rows (worksheetRows i ws) = (ws.zipIdx i).map (fun w => (w.2, w.1)) := by
    induction ws with
    | nil => intro i; rfl
    | cons w ws ih =>
      intro i
      rw [List.zipIdx_cons, List.map_cons, ← ih (i + 1)]
      rfl
  have happ : ∀ a b, rows (a ++ b) = rows a ++ rows b := fun a b => List.filterMap_append
  unfold printWorksheet
  simp only []
  rw [happ, happ, loop]
  simp [rows]

/-- **C104 (row).** The words of a printed row are the number, the plugin, what it provides and what it depends on; names of any length
are printed in full and apart from each other. -/
theorem C104_row (indent : String) (showSet : List String → String) (i : Nat) (p : String) (pr ds : List String) (hp : IsName p)
    (hpr : ∀ s ∈ pr, IsName s) (hds : ∀ s ∈ ds, IsName s) :
    words ((Line.row i p pr ds).render indent showSet) =
      [(toString i).toList, p.toList] ++ listed pr ++ (if ds = [] then ["(none)".toList] else listed ds) := by
  have hi : IsName (toString i) := by
    refine ⟨?_, digit_ne_space i⟩
    simpa using Nat.toDigits_ne_nil
  have e : (Line.row i p pr ds).render indent showSet = ljust 4 (toString i) ++ " " ++ (ljust 30 p ++ " " ++
      (ljust 25 (", ".intercalate pr) ++ " " ++ (if ds = [] then "(none)" else ", ".intercalate ds))) := by
    simp only [Line.render, String.append_assoc]
  rw [e, words_ljust_cons, words_ljust_cons, words_ljust_cons, words_name _ hi, words_name _ hp, words_listed _ hpr]
  by_cases hd : ds = []
  · simp only [if_pos hd, List.append_assoc, List.cons_append, List.nil_append]
    rfl
  · simp only [if_neg hd, List.append_assoc, List.cons_append, List.nil_append, words_listed _ hds]

/-- **C104 (before deduce).** Without code or worksheet a single line says what to do, and nothing is raised. -/
theorem C104_before_deduce (name : String) : printCode name none = [.text "Component has no generated code. Run deduce() first."] ∧
    printWorksheet name none = [.text "Component has no worksheet. Run deduce() first."] ∧ ∀ s, .text s ∈ printCode name (some s) :=
  ⟨rfl, rfl, fun s => by simp [printCode]⟩

/-- A case: a simulated and a fixed component; what they need is shown, and the text of a line. -/
example : components (likelihoodSummary true (.lit "norm" "cs1" []) [("er", ⟨.sim "[]", "er_rate", ["w", "g1"]⟩),
      ("ac", ⟨.fixed "ac.csv", "ac_rate", ["ac_rate"]⟩)]) = [(0, "er"), (1, "ac")] ∧
    parameters (likelihoodSummary true (.lit "norm" "cs1" []) [("er", ⟨.sim "[]", "er_rate", ["w", "g1"]⟩),
      ("ac", ⟨.fixed "ac.csv", "ac_rate", ["ac_rate"]⟩)]) = [["w", "g1"], ["ac_rate"]] ∧
    (Line.component 1 "ac").render "    " (fun _ => "") = "    COMPONENT 1: ac" := by decide +kernel

/-- A case of a row. -/
example : (Line.row 2 "Quanta" ["num_quanta"] ["energy"]).render "" (fun _ => "")
      = "2    Quanta                         num_quanta                energy" ∧
    words "2    Quanta                         num_quanta                energy"
      = ["2".toList, "Quanta".toList, "num_quanta".toList, "energy".toList] := by decide +kernel

/-- A case of an alias: the context provides `g1`, as shown, and is refused. -/
example : (Llh.registerAll [("g1_a", "g1")] [("er", .ok (.sim ["g1"] (fun _ _ _ => .error .valueError) (fun _ _ _ => .error .valueError) :
    Llh.LComp Nat Nat))]).needed = ["g1_a"] := by
  simp [Llh.registerAll, Llh.register, PyDict.has, PyDict.get?, Llh.aliasNeeded, Llh.LComp.needed]

end Verif.Summary
