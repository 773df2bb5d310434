/-
Helper lemmas for the chain from plugins to the likelihood (C79).
-/
import Verif.Spec.Flow
import Verif.Lemmas.Whole
import Verif.Lemmas.Register
import Verif.Props.Component

namespace Verif.Llh
open Verif Comp

theorem columns_map (cols : List (List ℝ)) : columns (cols.map .col) = .ok cols := by
  induction cols with
  | nil => rfl
  | cons c cols ih => simp [columns, ih, bind, Except.bind, pure, Except.pure]

theorem reals_floats (q : PyDict String ℝ) : reals (floats q) = some q := by
  induction q with
  | nil => rfl
  | cons e q ih =>
    obtain ⟨k, x⟩ := e
    have : reals (floats ((k, x) :: q)) = (reals (floats q)).map (fun q => (k, x) :: q) := rfl
    rw [this, ih]
    rfl

theorem floats_get? (q : PyDict String ℝ) (k : String) : (floats q).get? k = (q.get? k).map .fin := by
  induction q with
  | nil => rfl
  | cons e q ih =>
    obtain ⟨k', x⟩ := e
    change PyDict.get? ((k', XF.fin x) :: floats q) k = _
    rw [PyDict.get?_cons, PyDict.get?_cons, ih]
    split <;> rfl

theorem floats_set (q : PyDict String ℝ) (k : String) (x : ℝ) : (floats q).set k (.fin x) = floats (q.set k x) := by
  induction q with
  | nil => rfl
  | cons e q ih =>
    obtain ⟨k', y⟩ := e
    change PyDict.set ((k', XF.fin y) :: floats q) k (.fin x) = floats (PyDict.set ((k', y) :: q) k x)
    simp only [PyDict.set]
    split
    · rfl
    · rw [ih]; rfl

theorem floats_del (q : PyDict String ℝ) (k : String) : (floats q).del k = floats (q.del k) := by
  induction q with
  | nil => rfl
  | cons e q ih =>
    obtain ⟨k', y⟩ := e
    change PyDict.del ((k', XF.fin y) :: floats q) k = floats (PyDict.del ((k', y) :: q) k)
    unfold PyDict.del at ih ⊢
    by_cases h : k' = k
    · rw [List.filter_cons_of_neg (by simp [h]), List.filter_cons_of_neg (by simp [h]), ih]
    · rw [List.filter_cons_of_pos (by simp [h]), List.filter_cons_of_pos (by simp [h]), ih]
      rfl

theorem floats_alias (al : PyDict String String) (q : PyDict String ℝ) :
    replaceAlias al (floats q) = floats (replaceAlias al q) := by
  unfold replaceAlias
  induction al generalizing q with
  | nil => rfl
  | cons kv al ih =>
    rw [List.foldl_cons, List.foldl_cons]
    have : aliasStep (floats q) kv = floats (aliasStep q kv) := by
      unfold aliasStep
      rw [floats_get?]
      cases q.get? kv.1 with
      | none => rfl
      | some x => simp only [Option.map_some]; rw [floats_del, floats_set]
    rw [this, ih]

theorem gridFloats_shape (g : Grid ℝ) : (gridFloats g).map List.length = g.map List.length := by
  simp [gridFloats, Function.comp_def]

theorem zip_fin (a b : List ℝ) :
    List.zipWith (· + ·) (a.map XF.fin) (b.map XF.fin) = (List.zipWith (· + ·) a b).map XF.fin := by
  rw [List.zipWith_map, List.map_zipWith]
  rfl

theorem gridFloats_add (a b : Grid ℝ) :
    List.zipWith (List.zipWith (· + ·)) (gridFloats a) (gridFloats b) = gridFloats (List.zipWith (List.zipWith (· + ·)) a b) := by
  unfold gridFloats
  rw [List.zipWith_map, List.map_zipWith]
  simp only [zip_fin]

theorem gridFloats_sumFrom (acc : Grid ℝ) (hs : List (Grid ℝ)) :
    sumFrom (gridFloats acc) (hs.map gridFloats) = gridFloats (sumFrom acc hs) := by
  unfold sumFrom
  induction hs generalizing acc with
  | nil => rfl
  | cons h hs ih => rw [List.map_cons, List.foldl_cons, List.foldl_cons, gridFloats_add, ih]

theorem gridFloats_zeros {W : Type} (g : Grid W) : (zeros g : Grid XF) = gridFloats (zeros g) := by
  simp [zeros, gridFloats]
  intro r _
  exact Or.inr rfl

/-! ### A simulated component -/

section
variable {K : Type}

/-- In a data flow, needed outputs are columns if the plugins return columns. -/
theorem evaluates_col {sem : Plugin → K → List PVal → Res (K × List PVal)} {needed : String → Prop} {val : String → PVal}
    {ws : List Plugin} {k k' : K} (h : Evaluates sem needed val ws k k')
    (hsem : ∀ p ∈ ws, ∀ k args k' outs, args.length = p.dependsOn.length → sem p k args = .ok (k', outs) →
      ∀ o ∈ outs, ∃ c, o = PVal.col c)
    (d : String) (p : Plugin) (hp : p ∈ ws) (hd : d ∈ p.provides) (hn : needed d) : ∃ c, val d = .col c := by
  induction h with
  | nil => simp at hp
  | cons h1 h2 h3 ih =>
    rename_i p' ps k k1 k2 outs
    rcases List.mem_cons.1 hp with rfl | hp
    · obtain ⟨i, hi⟩ := List.getElem?_of_mem hd
      exact hsem p (by simp) _ _ _ _ (by simp) h1 _ (List.mem_of_getElem? (h2 i d hi hn))
    · exact ih (fun q hq => hsem q (List.mem_cons_of_mem _ hq)) hp

theorem map_cols (l : List String) (val : String → PVal) (h : ∀ n ∈ l, ∃ c, val n = .col c) :
    ∃ cols : List (List ℝ), l.map val = cols.map .col := by
  induction l with
  | nil => exact ⟨[], rfl⟩
  | cons n l ih =>
    obtain ⟨c, hc⟩ := h n (by simp)
    obtain ⟨cols, hcs⟩ := ih (fun m hm => h m (by simp [hm]))
    exact ⟨c :: cols, by simp [hc, hcs]⟩

theorem outNames_eff (binsOn : List String) (h : "eff" ∉ binsOn) : outNames (binsOn ++ ["eff"]) false = binsOn ++ ["eff"] := by
  unfold outNames
  simp only [Bool.false_eq_true, if_false]
  rw [List.erase_append_right _ h]
  simp

theorem compile_fresh (c c' : Comp) (g g' : FnCache) (code : Code) (cache : PyDict String Nat) (heap : List (PyDict String Code))
    (hg : g = { cache := cache.set c.llhName heap.length, heap := heap ++ [[]] })
    (ht : c.target = some (heap.length, code)) (hf : c.funcName = some code.funcName)
    (h : compile c g = ((c', g'), .ok ())) : c' = { c with simulate := some code } := by
  subst hg
  unfold compile at h
  rw [ht] at h
  simp only [PyDict.get?_set_self, hf, Option.getD_some] at h
  have hm : ((heap ++ [[]]).modify heap.length (fun d => d.set code.funcName code))[heap.length]?.getD [] =
      [(code.funcName, code)] := by
    rw [List.getElem?_modify]
    simp [PyDict.set]
  rw [hm] at h
  simp only [PyDict.get?_cons, if_true] at h
  rw [hf, ht]
  exact (Prod.mk.inj (Prod.mk.inj h).1).1.symm

theorem registerSim_ok {V : Type} {llh : String} {binsOn : List String} {al : PyDict String String} {wrap : Comp → LComp K V}
    {s s' : State K V} {g g' : FnCache} {a : SimArgs} (heff : "eff" ∉ binsOn)
    (h : registerSim llh binsOn al wrap s g a = ((s', g'), .ok ())) :
    ∃ deps c, deduceDeps a.registry "batch_size" 1000 (binsOn ++ ["eff"]) [] = .ok deps ∧
      c.name = a.comp ∧ c.rateName = a.comp ++ "_rate" ∧ c.forceNoEff = false ∧
      c.simulate = some (genCode a.comp llh (worksheet deps) (binsOn ++ ["eff"]) (llh ++ "_" ++ a.comp ++ "_sim") "batch_size") ∧
      a.comp ∉ s.components.keys ∧ s'.components = s.components ++ [(a.comp, wrap c)] := by
  unfold registerSim at h
  split at h
  · cases h
  rename_i hhas
  split at h
  · cases h
  rename_i c1 g1 hded
  split at h
  · cases h
  rename_i c2 g2 hcomp
  obtain ⟨deps, nd, h1, _, h3, h4, h5⟩ := deduce_ok_iff hded
  simp only [outNames_eff binsOn heff] at h1 h3 h5
  have hc2 := compile_fresh c1 c2 g1 g2 _ g.cache g.heap (by rw [h5, h3]) (by rw [h3]) (by rw [h3]; rfl) hcomp
  obtain ⟨c, hc, hn, hs⟩ := register_ok (Prod.mk.inj (Prod.mk.inj h).1 |>.1 ▸ (by
    have := (Prod.mk.inj h).2
    rw [← this]) : register al s a.comp (.ok (wrap c2)) = (s', .ok ()))
  cases hc
  refine ⟨deps, c2, h1, ?_, ?_, ?_, ?_, hn, by rw [hs]⟩ <;> rw [hc2] <;> simp [h3]


/-- What is known about a registered component `c` whose plugins run in the order `ord`. -/
def Good (S : Setup K) (bins : Bins ℝ) (ord : List Plugin) (p : Part) (c : LComp K XF) : Prop :=
  ∀ batch q key, (∃ rate, q.get? (p.name ++ "_rate") = some rate) →
    ∃ s k', (∀ (order : String → List Plugin) ps ss k'', order p.name = ord → Draws S order batch q ps k' ss k'' →
        Draws S order batch q (p :: ps) key (s :: ss) k'') ∧
      s.cfg = S.cfg p.name ∧
      (s.Normalisable → ∃ h : Grid ℝ, h.map List.length = binShape bins ∧
        (∀ i j, IsBin bins i j → at? h i j = some (s.expected (i, j))) ∧
        ∀ n cs hs k'', Runs batch (floats q) cs k' hs k'' → Runs batch (floats q) ((n, c) :: cs) key (gridFloats h :: hs) k'')

/-- The order in which the plugins run: that of the resolved dependencies. -/
def simOrder (reg : Registry) (names : List String) : List Plugin :=
  match deduceDeps reg "batch_size" 1000 names [] with
  | .ok deps => worksheet deps
  | .error _ => []

theorem good_sim (S : Setup K) (bins : Bins ℝ) (parts : List Part) (hS : S.Proper bins parts) (a : SimArgs)
    (ha : Part.sim a ∈ parts) {s s' : State K XF} {g g' : FnCache}
    (h : registerSim S.llh S.binsOn S.al S.wrap s g a = ((s', g'), .ok ())) :
    ∃ c ord, a.comp ∉ s.components.keys ∧ s'.components = s.components ++ [(a.comp, c)] ∧
      (ord = simOrder a.registry (S.binsOn ++ ["eff"]) ∧ Topological a.registry (S.binsOn ++ ["eff"]) ord) ∧ Good S bins ord (.sim a) c := by
  obtain ⟨deps, c, hdeps, hname, hrate, hforce, hsim, hnew, hs'⟩ := registerSim_ok hS.no_eff h
  have hc : Consistent a.registry "batch_size" (S.binsOn ++ ["eff"]) :=
    { names_distinct := by
        intro d d' p p' hd hd' hp hp' hn
        have h1 := (hS.provides a ha d p hd hp).2.2.2.2
        have h2 := (hS.provides a ha d' p' hd' hp').2.2.2.2
        rw [hn, h2] at h1
        exact (Option.some.inj h1).symm
      provides := fun d p hd hp => (hS.provides a ha d p hd hp).1
      sole := hS.sole a ha
      nodup := fun d p hd hp => (hS.provides a ha d p hd hp).2.1
      no_nodep := fun d p hd hp => (hS.provides a ha d p hd hp).2.2.1
      nonempty := fun d p hd hp => (hS.provides a ha d p hd hp).2.2.2.1 }
  obtain ⟨t1, _, t2, t3⟩ := C10_topological_order a.registry "batch_size" 1000 _ deps hdeps hc.names_distinct
  refine ⟨S.wrap c, worksheet deps, hnew, hs', ⟨by unfold simOrder; rw [hdeps], t1, t2, ((C12_success_iff a.registry "batch_size" 1000 _).1 ⟨deps, hdeps⟩).2.1, ?_⟩, ?_⟩
  · intro pre p post he e hed
    rcases t3 pre p post he e hed with h | ⟨_, h⟩
    · exact Or.inl h
    · exact Or.inr h
  intro batch q key ⟨rate, hr⟩
  have hws : ∀ p ∈ worksheet deps, ∃ d, Reach a.registry "batch_size" (S.binsOn ++ ["eff"]) d ∧ a.registry.get? d = some p :=
    fun p hp => (t2 p).1 hp
  obtain ⟨key', val, hrun, hin, hev⟩ := C11_generated_code_computes_data_flow a.registry "batch_size" 1000 _ deps hdeps hc S.ns
    (S.sem q)
    (fun p hp => by obtain ⟨d, hd, hp'⟩ := hws p hp; exact (hS.provides a ha d p hd hp').2.2.2.2)
    (fun p hp k args hl => by
      obtain ⟨d, hd, hp'⟩ := hws p hp
      obtain ⟨k', outs, e1, e2, _⟩ := hS.returns a ha d p hd hp' q k args hl
      exact ⟨k', outs, e1, e2⟩)
    a.comp S.llh (S.llh ++ "_" ++ a.comp ++ "_sim") key (.int batch)
  have hcol : ∀ n ∈ S.binsOn ++ ["eff"], ∃ c, val n = .col c := by
    intro n hn
    have hne : n ≠ "batch_size" := by
      rintro rfl
      rcases List.mem_append.1 hn with h | h
      · exact hS.no_batch h
      · simp at h
    have hreach : Reach a.registry "batch_size" (S.binsOn ++ ["eff"]) n := .root hn hne
    obtain ⟨p, hp⟩ := ((C12_success_iff a.registry "batch_size" 1000 _).1 ⟨deps, hdeps⟩).2.1 n hreach
    refine evaluates_col hev ?_ n p ((t2 p).2 ⟨n, hreach, hp⟩) (hS.provides a ha n p hreach hp).1 hreach
    intro p' hp' k args k1 outs hl he o ho
    obtain ⟨d, hd, hp''⟩ := hws p' hp'
    obtain ⟨k2, outs2, e1, _, e3⟩ := hS.returns a ha d p' hd hp'' q k args hl
    rw [he] at e1
    cases e1
    exact e3 o ho
  obtain ⟨cols, hcols⟩ := map_cols S.binsOn val (fun n hn => hcol n (by simp [hn]))
  obtain ⟨eff, heff⟩ := hcol "eff" (by simp)
  have hlen : cols.length = bins.dims := by
    rw [← hS.dims]
    simpa using (congrArg List.length hcols).symm
  have hbins : (S.cfg a.comp).bins = bins := hS.bins_eq _ ha
  refine ⟨⟨S.cfg a.comp, cols, eff, rate, batch⟩, key', ?_, rfl, ?_⟩
  · intro order ps ss k'' ho hd
    simp only [Part.name] at ho
    exact .sim hin (by rw [ho]; exact hev) hcols heff hr hd
  · intro hn
    obtain ⟨hh, e1, e2, e3⟩ := simulateHist_spec ⟨S.cfg a.comp, cols, eff, rate, batch⟩ (by rw [hbins]; exact hS.ascending)
      (by simp only [hbins]; exact hlen) hn
    simp only at e1 e2 e3
    rw [hbins] at e2 e3
    refine ⟨hh, e2, e3, ?_⟩
    intro n cs hs k'' hruns
    refine .sim ?_ hruns
    simp only [reals_floats, hname, hrate, hforce]
    have hrunc : S.run c key batch q = .ok (key', cols ++ [eff]) := by
      unfold Setup.run
      rw [hsim]
      simp only
      rw [hrun]
      simp only [bind, Except.bind, List.map_append, hcols, List.map_cons, List.map_nil, heff]
      have : columns (cols.map PVal.col ++ [PVal.col eff]) = .ok (cols ++ [eff]) := by
        rw [← columns_map (cols ++ [eff])]; simp
      rw [this]
      rfl
    rw [hrunc]
    have hrate' : q.getItem (a.comp ++ "_rate") = .ok rate := by
      simp only [Part.name] at hr
      unfold PyDict.getItem
      rw [hr]
    simp only [bind, Except.bind, hrate', pure, Except.pure]
    rw [e1]
    rfl

theorem good_fixed (S : Setup K) (bins : Bins ℝ) (parts : List Part) (hS : S.Proper bins parts) (name : String)
    (data : List (List ℝ)) (m : Nat) (ha : Part.fixed name data m ∈ parts) {s s' : State K XF}
    (h : register S.al s name ((fixedDeduce (S.cfg name) (name ++ "_rate") [] data m).map
        (fun c => onFloats S.odd S.oddFixed (fixedComp c (name ++ "_rate")))) = (s', .ok ())) :
    ∃ c, name ∉ s.components.keys ∧ s'.components = s.components ++ [(name, c)] ∧ Good S bins [] (.fixed name data m) c := by
  obtain ⟨c, hc, hnew, hs⟩ := register_ok h
  have hbins : (S.cfg name).bins = bins := hS.bins_eq _ ha
  have hlen : data.length = bins.dims := hS.tables _ _ _ ha
  refine ⟨c, hnew, by rw [hs], ?_⟩
  intro batch q key ⟨rate, hr⟩
  refine ⟨⟨S.cfg name, data, List.replicate m 1, rate, m⟩, key, ?_, rfl, ?_⟩
  · intro order ps ss k'' _ hd
    exact .fixed hr hd
  · intro hn
    obtain ⟨h0, e1, _⟩ := content_spec ⟨S.cfg name, data, List.replicate m 1, rate, m⟩ (by rw [hbins]; exact hS.ascending)
      (by simp only [hbins]; exact hlen)
    obtain ⟨f, e4, e5, e6⟩ := expected_spec ⟨S.cfg name, data, List.replicate m 1, rate, m⟩ (by rw [hbins]; exact hS.ascending)
      (by simp only [hbins]; exact hlen) hn h0 e1
    simp only at e1 e4 e5 e6
    rw [hbins] at e5 e6
    refine ⟨_, e5, e6, ?_⟩
    intro n cs hs k'' hruns
    unfold fixedDeduce at hc
    simp only [e1, bind, Except.bind, pure, Except.pure, Except.map, Except.ok.injEq] at hc
    subst hc
    refine .fixed ?_ hruns
    simp only [reals_floats]
    have hrate' : q.getItem (name ++ "_rate") = .ok rate := by
      simp only [Part.name] at hr
      unfold PyDict.getItem
      rw [hr]
    simp only [bind, Except.bind, hrate']
    unfold fixedHist
    simp only [List.length_replicate, e4, bind, Except.bind, pure, Except.pure]
    rfl

/-- A sample and the histogram the code makes of it. -/
def HistOf (bins : Bins ℝ) (s : Sample ℝ) (h : Grid ℝ) : Prop :=
  h.map List.length = binShape bins ∧ ∀ i j, IsBin bins i j → at? h i j = some (s.expected (i, j))

theorem step_good (S : Setup K) (bins : Bins ℝ) (parts : List Part) (hS : S.Proper bins parts) (p : Part) (hp : p ∈ parts)
    {sg sg' : State K XF × FnCache} (h : regStep S.llh S.binsOn S.al S.wrap sg (S.reg p) = (sg', .ok ())) :
    ∃ c ord, p.name ∉ sg.1.components.keys ∧ sg'.1.components = sg.1.components ++ [(p.name, c)] ∧
      (∀ a, p = .sim a → ord = simOrder a.registry (S.binsOn ++ ["eff"]) ∧ Topological a.registry (S.binsOn ++ ["eff"]) ord) ∧
      Good S bins ord p c := by
  cases p with
  | sim a =>
    obtain ⟨c, ord, h1, h2, h3, h4⟩ := good_sim S bins parts hS a hp (s' := sg'.1) (g' := sg'.2) h
    exact ⟨c, ord, h1, h2, fun a' ha => by cases ha; exact h3, h4⟩
  | fixed n d m =>
    simp only [Setup.reg, regStep, Prod.mk.injEq] at h
    obtain ⟨c, h1, h2, h3⟩ := good_fixed S bins parts hS n d m hp (s' := sg'.1) (s := sg.1)
      (Prod.ext (by rw [← h.1]) h.2)
    exact ⟨c, [], h1, h2, (fun a' ha => by cases ha), h3⟩

theorem build_runs (S : Setup K) (bins : Bins ℝ) (all : List Part) (hS : S.Proper bins all) (parts : List Part)
    (hsub : ∀ p ∈ parts, p ∈ all) (sg sg' : State K XF × FnCache) (h : S.build parts sg = (sg', .ok ())) :
    ∃ cs, ∃ order : String → List Plugin, sg'.1.components = sg.1.components ++ cs ∧
      (∀ p ∈ parts, p.name ∉ sg.1.components.keys) ∧
      (∀ a, Part.sim a ∈ parts → order a.comp = simOrder a.registry (S.binsOn ++ ["eff"]) ∧
        Topological a.registry (S.binsOn ++ ["eff"]) (order a.comp)) ∧
      ∀ order' : String → List Plugin, (∀ p ∈ parts, order' p.name = order p.name) → ∀ batch q key,
        (∀ p ∈ parts, ∃ rate, q.get? (p.name ++ "_rate") = some rate) →
        ∃ ss k', Draws S order' batch q parts key ss k' ∧
          ((∀ s ∈ ss, s.Normalisable) → ∃ hs, Runs batch (floats q) cs key (hs.map gridFloats) k' ∧
            List.Forall₂ (HistOf bins) ss hs) := by
  induction parts generalizing sg with
  | nil =>
    cases h
    exact ⟨[], fun _ => [], by simp, by simp, by simp, fun _ _ batch q key _ => ⟨[], key, .nil _, fun _ => ⟨[], .nil _, .nil⟩⟩⟩
  | cons p ps ih =>
    unfold Setup.build at h
    split at h
    · cases h
    rename_i sg1 h1
    obtain ⟨c, ord, g1, g2, g3, g4⟩ := step_good S bins all hS p (hsub p (by simp)) h1
    obtain ⟨cs, order, e1, e2, e3, e4⟩ := ih (fun p' hp' => hsub p' (by simp [hp'])) sg1 h
    have hkeys : sg1.1.components.keys = sg.1.components.keys ++ [p.name] := by
      rw [g2]; simp [PyDict.keys]
    have hne : ∀ p' ∈ ps, p'.name ≠ p.name := by
      intro p' hp' hn
      apply e2 p' hp'
      rw [hkeys, hn]
      simp
    refine ⟨(p.name, c) :: cs, fun n => if n = p.name then ord else order n, ?_, ?_, ?_, ?_⟩
    · rw [e1, g2]; simp
    · intro p' hp'
      rcases List.mem_cons.1 hp' with rfl | hp'
      · exact g1
      · intro hk
        apply e2 p' hp'
        rw [hkeys]
        simp [hk]
    · intro a ha
      rcases List.mem_cons.1 ha with hp | ha
      · subst hp
        simpa [Part.name] using g3 a rfl
      · have : ¬ a.comp = p.name := hne _ ha
        simp only [this, if_false]
        exact e3 a ha
    · intro order' ho batch q key hr
      obtain ⟨s, k1, d1, _, d3⟩ := g4 batch q key (hr p (by simp))
      obtain ⟨ss, k2, f1, f2⟩ := e4 order' (fun p' hp' => by
        rw [ho p' (by simp [hp'])]
        exact if_neg (hne p' hp')) batch q k1 (fun p' hp' => hr p' (by simp [hp']))
      refine ⟨s :: ss, k2, d1 order' ps ss k2 (by rw [ho p (by simp)]; simp) f1, ?_⟩
      intro hn
      obtain ⟨hh, i1, i2, i3⟩ := d3 (hn s (by simp))
      obtain ⟨hs, j1, j2⟩ := f2 (fun s' hs' => hn s' (by simp [hs']))
      exact ⟨hh :: hs, i3 _ _ _ _ j1, .cons ⟨i1, i2⟩ j2⟩

theorem histOf_sum {bins : Bins ℝ} {ss : List (Sample ℝ)} {hs : List (Grid ℝ)} (h : List.Forall₂ (HistOf bins) ss hs) :
    (∀ g ∈ hs, g.map List.length = binShape bins) ∧
    ∀ i j, IsBin bins i j → (hs.map (fun g => (at? g i j).getD 0)).sum = (ss.map (fun s => s.expected (i, j))).sum := by
  induction h with
  | nil => simp
  | cons hd _ ih =>
    obtain ⟨i1, i2⟩ := ih
    refine ⟨?_, ?_⟩
    · intro g hg
      rcases List.mem_cons.1 hg with rfl | hg
      · exact hd.1
      · exact i1 g hg
    · intro i j hij
      rw [List.map_cons, List.map_cons, List.sum_cons, List.sum_cons, i2 i j hij, hd.2 i j hij]
      rfl

/-- The model histogram of a likelihood, given the histograms of its samples. -/
theorem model_of_runs {bins : Bins ℝ} (ha : Ascending bins) {data : Grid ℝ} (hd : data.map List.length = binShape bins)
    {ss : List (Sample ℝ)} {hs : List (Grid ℝ)} (hh : List.Forall₂ (HistOf bins) ss hs)
    (al : PyDict String String) {st : State K XF} {batch : Int} {q : PyDict String ℝ} {key k' : K}
    (hr : Runs batch (floats (replaceAlias al q)) st.components key (hs.map gridFloats) k') :
    ∃ h : Grid ℝ, simulateModelHist al data st key batch (floats q) = .ok (k', gridFloats h) ∧
      h.flatten = (binList bins).map (fun b => (ss.map (fun s => s.expected b)).sum) := by
  obtain ⟨e1, e2⟩ := histOf_sum hh
  have hz : (zeros data : Grid ℝ).map List.length = binShape bins := by
    rw [← hd]; simp [zeros, Function.comp_def]
  obtain ⟨f1, _, f3⟩ := sumFrom_spec hs (zeros data) (fun g hg => by rw [e1 g hg, hz])
  refine ⟨sumFrom (zeros data) hs, ?_, ?_⟩
  · unfold simulateModelHist
    rw [floats_alias]
    refine (modelLoop_iff _ _ _ _ _ _ _).2 ⟨_, hr, ?_, ?_⟩
    · intro g hg
      obtain ⟨g', hg', rfl⟩ := List.mem_map.1 hg
      rw [gridFloats_zeros, gridFloats_shape, gridFloats_shape, e1 g' hg', hz]
    · rw [gridFloats_zeros, gridFloats_sumFrom]
  · rw [flatten_cells _ 0, f1, hz]
    apply List.map_congr_left
    rintro ⟨i, j⟩ hb
    have hij : IsBin bins i j := (mem_binList bins ha i j).1 hb
    have hzij : at? (zeros data : Grid ℝ) i j = some 0 := by
      have hm : (i, j) ∈ cells ((zeros data : Grid ℝ).map List.length) := by rw [hz]; exact hb
      rw [mem_cells] at hm
      obtain ⟨n, hn, hj⟩ := hm
      simp only [zeros, at?, List.getElem?_map, Option.map_eq_some_iff] at hn ⊢
      obtain ⟨r, ⟨r', hr', rfl⟩, rfl⟩ := hn
      simp only [List.length_map] at hj
      rw [hr']
      simp [hj]
    rw [f3 i j 0 hzij, Option.getD_some, zero_add, e2 i j hij]

/-! ### The samples are determined -/

theorem evaluates_unique {V : Type} {sem : Plugin → K → List V → Res (K × List V)} {needed : String → Prop}
    {val val' : String → V} (ord : List Plugin) (known : String → Prop) (hk : ∀ d, known d → val d = val' d)
    (ht : ∀ pre p post, ord = pre ++ p :: post → ∀ e ∈ p.dependsOn, known e ∨ ∃ q ∈ pre, e ∈ q.provides ∧ needed e)
    {k k1 k2 : K} (h : Evaluates sem needed val ord k k1) (h' : Evaluates sem needed val' ord k k2) :
    k1 = k2 ∧ ∀ p ∈ ord, ∀ d ∈ p.provides, needed d → val d = val' d := by
  induction ord generalizing known k with
  | nil => cases h; cases h'; exact ⟨rfl, by simp⟩
  | cons p ps ih =>
    cases h with
    | cons e1 e2 e3 =>
      cases h' with
      | cons f1 f2 f3 =>
        have hargs : p.dependsOn.map val = p.dependsOn.map val' := by
          apply List.map_congr_left
          intro e he
          rcases ht [] p ps rfl e he with h | ⟨q, hq, _⟩
          · exact hk e h
          · simp at hq
        rw [hargs, f1] at e1
        cases e1
        have hp : ∀ d ∈ p.provides, needed d → val d = val' d := by
          intro d hd hn
          obtain ⟨i, hi⟩ := List.mem_iff_getElem?.1 hd
          have := e2 i d hi hn
          rw [f2 i d hi hn] at this
          exact (Option.some.inj this).symm
        obtain ⟨r1, r2⟩ := ih (fun d => known d ∨ (d ∈ p.provides ∧ needed d))
          (fun d hd => hd.elim (hk d) (fun h => hp d h.1 h.2))
          (by
            intro pre q post he e hed
            rcases ht (p :: pre) q post (by rw [he]; rfl) e hed with h | ⟨q', hq', h1, h2⟩
            · exact .inl (.inl h)
            · rcases List.mem_cons.1 hq' with rfl | hq'
              · exact .inl (.inr ⟨h1, h2⟩)
              · exact .inr ⟨q', hq', h1, h2⟩) e3 f3
        refine ⟨r1, ?_⟩
        intro q hq d hd hn
        rcases List.mem_cons.1 hq with rfl | hq
        · exact hp d hd hn
        · exact r2 q hq d hd hn

theorem draws_unique (S : Setup K) (bins : Bins ℝ) (all : List Part) (hS : S.Proper bins all) (order : String → List Plugin)
    (hord : ∀ a, Part.sim a ∈ all → Topological a.registry (S.binsOn ++ ["eff"]) (order a.comp)) (batch : Int)
    (q : PyDict String ℝ) (parts : List Part) (hsub : ∀ p ∈ parts, p ∈ all) {key k1 k2 : K} {ss ss' : List (Sample ℝ)}
    (h : Draws S order batch q parts key ss k1) (h' : Draws S order batch q parts key ss' k2) : ss = ss' ∧ k1 = k2 := by
  induction h generalizing ss' with
  | nil => cases h'; exact ⟨rfl, rfl⟩
  | fixed hr _ ih =>
    cases h' with
    | fixed hr' hd' =>
      obtain ⟨rfl, rfl⟩ := ih (fun p hp => hsub p (by simp [hp])) hd'
      rw [hr] at hr'
      cases hr'
      exact ⟨rfl, rfl⟩
  | @sim a ps k k' ss0 k'' val cols eff rate h1 h2 h3 h4 h5 _ ih =>
    cases h' with
    | @sim _ _ _ k3 _ _ val' cols' eff' rate' g1 g2 g3 g4 g5 hd' =>
      have ha := hsub _ (List.mem_cons_self (a := Part.sim a) (l := ps))
      have ht := hord a ha
      obtain ⟨rfl, r2⟩ := evaluates_unique (order a.comp) (fun d => d = "batch_size") (by rintro d rfl; rw [h1, g1])
        (by
          intro pre p post he e hed
          by_cases hb : e = "batch_size"
          · exact .inl hb
          · rcases ht.before pre p post he e hed with h | ⟨p', hp', hget⟩
            · exact absurd h hb
            · obtain ⟨d, hd, hp⟩ := (ht.all p).1 (by rw [he]; simp)
              have hre : Reach a.registry "batch_size" (S.binsOn ++ ["eff"]) e := .dep hd hp hed hb
              exact .inr ⟨p', hp', (hS.provides a ha e p' hre hget).1, hre⟩) h2 g2
      obtain ⟨rfl, rfl⟩ := ih (fun p hp => hsub p (by simp [hp])) hd'
      have hval : ∀ d ∈ S.binsOn ++ ["eff"], val d = val' d := by
        intro d hd
        by_cases hb : d = "batch_size"
        · rw [hb, h1, g1]
        have hre : Reach a.registry "batch_size" (S.binsOn ++ ["eff"]) d := .root hd hb
        obtain ⟨p, hp⟩ := ht.covers d hre
        exact r2 p ((ht.all p).2 ⟨d, hre, hp⟩) d (hS.provides a ha d p hre hp).1 hre
      have hc : cols = cols' := by
        have : S.binsOn.map val = S.binsOn.map val' := List.map_congr_left (fun d hd => hval d (by simp [hd]))
        rw [h3, g3] at this
        exact List.map_injective_iff.2 (fun _ _ h => PVal.col.inj h) this
      have he : eff = eff' := by
        have := hval "eff" (by simp)
        rw [h4, g4] at this
        exact PVal.col.inj this
      rw [h5] at g5
      cases g5
      subst hc he
      exact ⟨rfl, rfl⟩

end
end Verif.Llh
