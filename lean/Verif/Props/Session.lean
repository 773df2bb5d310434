/-
Property theorems C105: changing options in a running session.
-/
import Verif.Lemmas.Session
import Verif.Props.Config
import Verif.Props.Component

namespace Verif.Session
open Verif Conf Comp

/-- **C105 (nothing changes by itself).** Once a component is compiled, its simulator and the values its plugins hold stay the same
whatever options are set, contexts created, components deduced or compiled and caches cleared afterwards, until the component itself
is compiled again. -/
theorem C105_frozen (E : Env) (s0 : State) (h0 : Fresh s0) (ops1 ops2 : List Op) (i : Nat) (h1 : Op.clear ∉ ops1) (h2 : Op.compile i ∉ ops2)
    (hs : (run E s0 ops1).sees i ≠ none) :
    ((run E (run E s0 ops1) ops2).world.comps i).simulate = ((run E s0 ops1).world.comps i).simulate ∧
    ∀ plugin, instanceOf (run E (run E s0 ops1) ops2) i plugin = instanceOf (run E s0 ops1) i plugin := by
  have hinv := h0.sinv.run (E := E) ops1 h1
  generalize run E s0 ops1 = s at *
  obtain ⟨d, hd⟩ := Option.ne_none_iff_exists'.1 hs
  have key : ∀ (ops : List Op) (s : State), Op.compile i ∉ ops → Own s i d →
      ((run E s ops).world.comps i).simulate = (s.world.comps i).simulate ∧ (run E s ops).globals d = s.globals d ∧
      (run E s ops).sees i = s.sees i ∧ ((run E s ops).world.comps i).name = (s.world.comps i).name := by
    intro ops
    induction ops with
    | nil => intro s _ _; exact ⟨rfl, rfl, rfl, rfl⟩
    | cons o ops ih =>
      intro s ho hown
      obtain ⟨a1, a2, a3⟩ := frozen_step E s o i d hown (fun e => ho (by simp [e]))
      obtain ⟨b1, b2, b3, b4⟩ := ih (step E s o).1 (fun e => ho (by simp [e])) (own_step E s o i d hown)
      refine ⟨b1.trans a3, b2.trans a1, b3.trans a2, b4.trans (step_names E s o i).1⟩
  obtain ⟨c1, c2, c3, c4⟩ := key ops2 s h2 (hinv.own i d hd)
  refine ⟨c1, fun plugin => ?_⟩
  unfold instanceOf
  rw [c3, c4, hd]
  simp only [Option.bind_some, c2]

/-- **C105 (compile reads what is set).** As long as the cache is not cleared, compiling a component gives each of its plugins an
instance of its own whose options hold the values configured at that moment for its likelihood. -/
theorem C105_compile_reads_current (E : Env) (s0 : State) (h0 : Fresh s0) (ops : List Op) (h1 : Op.clear ∉ ops) (i : Nat)
    (hcfg : ∀ n p, E.ns.get? n = some p → (p.configs.map (fun cfg => (E.opt cfg).conf.name)).Nodup)
    (hok : (step E (run E s0 ops) (.compile i)).2 = .ok ()) :
    let s' := (step E (run E s0 ops) (.compile i)).1
    ∃ code, (s'.world.comps i).simulate = some code ∧ code.llhName = (s'.world.comps i).llhName ∧
      ∀ w ∈ code.works, ∃ p inst, E.ns.get? w.name = some p ∧ instanceOf s' i w.name = some inst ∧
        ∀ cfg ∈ p.configs, ∃ b, inst.get? (E.opt cfg).conf.name = some b ∧ Holds s'.conf (s'.world.comps i).llhName (E.opt cfg) b := by
  have hinv := h0.sinv.run (E := E) ops h1
  generalize run E s0 ops = s at *
  intro s'
  have hs' : s' = (step E s (.compile i)).1 := rfl
  have hnm := step_names E s (.compile i) i
  rw [← hs'] at hnm
  simp only [step, compileStep] at hok hs'
  cases ht : (s.world.comps i).target with
  | none => rw [ht] at hok; cases hok
  | some x =>
    obtain ⟨id, code⟩ := x
    obtain ⟨l1, l2, l3, l4⟩ := hinv.live i id code ht
    rw [ht] at hok hs'
    simp only at hok hs'
    cases hm : code.works.mapM (importClass E.ns) with
    | error e => rw [hm] at hok; cases hok
    | ok cls =>
      rw [hm] at hok hs'
      simp only at hok hs'
      have hcls := (mapM_ok_iff _ _ _).1 hm
      have hname : ∀ (ws : List Work) (cls : List (String × Plugin)), List.Forall₂ (fun w x => importClass E.ns w = .ok x) ws cls →
          cls.map Prod.fst = ws.map Work.name ∧ ∀ w ∈ ws, ∃ p, (w.name, p) ∈ cls ∧ E.ns.get? w.name = some p := by
        intro ws cls hcls
        induction hcls with
        | nil => simp
        | @cons w x ws xs hx _ ih =>
          unfold importClass at hx
          cases hg : E.ns.get? w.name with
          | none => rw [hg] at hx; cases hx
          | some p =>
            rw [hg] at hx
            cases hx
            refine ⟨by simp [ih.1], fun w' hw' => ?_⟩
            rcases List.mem_cons.1 hw' with rfl | hw'
            · exact ⟨p, by simp, hg⟩
            · obtain ⟨p', a, b⟩ := ih.2 w' hw'
              exact ⟨p', by simp [a], b⟩
      have hname := hname _ _ hcls
      have hcn : ∀ x ∈ cls, (x.2.configs.map (fun cfg => (E.opt cfg).conf.name)).Nodup := by
        intro x hx
        obtain ⟨w, hw⟩ := Verif.Conf.forall₂_mem_right hcls x hx
        unfold importClass at hw
        cases hg : E.ns.get? w.name with
        | none => rw [hg] at hw; cases hw
        | some p => rw [hg] at hw; cases hw; exact hcfg _ _ hg
      have hmk := makeAll_holds E code.llhName code.compName cls (s.globals id) s.conf (by rw [hname.1]; exact l4) hcn
      generalize makeAll E code.llhName code.compName cls (s.globals id) s.conf = g at *
      obtain ⟨c1, gl, r⟩ := g
      cases r with
      | error e => cases hok
      | ok u =>
        simp only at hok hs' hmk
        have hcomp : Comp.step s.world (.compile i) = ((Comp.step s.world (.compile i)).1, .ok ()) := by
          cases hx : Comp.step s.world (.compile i) with
          | mk w r =>
            rw [hx] at hok
            cases r with
            | error e => cases hok
            | ok v => rfl
        have hown := compile_own hinv.inv i id code l1 ht (by rw [hcomp])
        have hlive := live_step (w := s.world) i id code (.compile i) (by simp) l1 ht
        rw [hcomp] at hs'
        simp only at hs'
        have hw : s'.world = (Comp.step s.world (.compile i)).1 := by rw [hs']
        have hsees : s'.sees i = some id := by rw [hs']; simp only [upd, if_true]; exact hlive.1
        have hgl : s'.globals id = gl := by rw [hs']; simp [upd]
        have hconf : s'.conf = c1 := by rw [hs']
        refine ⟨code, by rw [hw]; exact hown, by rw [hnm.2]; exact l3, ?_⟩
        intro w hwk
        obtain ⟨p, hp1, hp2⟩ := hname.2 w hwk
        obtain ⟨inst, hi1, hi2⟩ := (hmk trivial).2 _ hp1
        refine ⟨p, inst, hp2, ?_, ?_⟩
        · unfold instanceOf
          rw [hsees]
          simp only [Option.bind_some, hgl, hnm.1, ← l2]
          exact hi1
        · rw [hnm.2, ← l3, hconf]
          exact hi2

/-- **C105 (setting an option).** Setting options and then compiling a component gives its plugins the new values: a Constant the
number that was given, or the one given for its likelihood, and a Map the file found under the name that was given. -/
theorem C105_set_then_compile (E : Env) (s0 : State) (h0 : Fresh s0) (ops : List Op) (h1 : Op.clear ∉ ops) (i : Nat)
    (hcfg : ∀ n p, E.ns.get? n = some p → (p.configs.map (fun cfg => (E.opt cfg).conf.name)).Nodup)
    (e : List (String × CVal)) (hn : (e.map Prod.fst).Nodup) (hdn : ∀ k d, (k, CVal.dict d) ∈ e → d.keys.Nodup)
    (hub : "url_base" ∉ e.map Prod.fst)
    (hset : (step E (run E s0 ops) (.setConfig (.dict e))).2 = .ok ())
    (hok : (step E (step E (run E s0 ops) (.setConfig (.dict e))).1 (.compile i)).2 = .ok ()) :
    let s' := (step E (step E (run E s0 ops) (.setConfig (.dict e))).1 (.compile i)).1
    ∃ code, (s'.world.comps i).simulate = some code ∧
      ∀ w ∈ code.works, ∃ p inst, E.ns.get? w.name = some p ∧ instanceOf s' i w.name = some inst ∧ ∀ cfg ∈ p.configs,
        ((E.opt cfg).kind = .constant → ∀ q, ((E.opt cfg).conf.name, .atom (.num q)) ∈ e →
          inst.get? (E.opt cfg).conf.name = some (.value (.num q))) ∧
        ((E.opt cfg).kind = .constant → ∀ d q, ((E.opt cfg).conf.name, .dict d) ∈ e → d.get? (s'.world.comps i).llhName = some (.num q) →
          inst.get? (E.opt cfg).conf.name = some (.value (.num q))) ∧
        ((E.opt cfg).kind = .map → ∀ f, ((E.opt cfg).conf.name, .atom (.str f)) ∈ e →
          ∃ path, (getFilePath E.fs f (run E s0 ops).conf).2 = .ok path ∧ inst.get? (E.opt cfg).conf.name = some (.file path)) := by
  have hrun : run E s0 (ops ++ [.setConfig (.dict e)]) = (step E (run E s0 ops) (.setConfig (.dict e))).1 := by
    rw [run_append]; rfl
  have hstored := fun k v hv => (C22_stores_what_was_given E.fs e (run E s0 ops).conf hn hdn hub hset).1 k v hv
  have hext := compile_ext E (step E (run E s0 ops) (.setConfig (.dict e))).1 i
  obtain ⟨code, c1, _, c3⟩ := C105_compile_reads_current E s0 h0 (ops ++ [.setConfig (.dict e)]) (by simp [h1]) i hcfg (by rw [hrun]; exact hok)
  rw [hrun] at c1 c3
  intro s'
  refine ⟨code, c1, ?_⟩
  intro w hw
  obtain ⟨p, inst, p1, p2, p3⟩ := c3 w hw
  refine ⟨p, inst, p1, p2, ?_⟩
  intro cfg hc
  obtain ⟨b, b1, b2⟩ := p3 cfg hc
  have hval : ∀ a, valueFor (step E (run E s0 ops) (.setConfig (.dict e))).1.conf (E.opt cfg).conf.name (some (s'.world.comps i).llhName) = some a →
      valueFor s'.conf (E.opt cfg).conf.name (some (s'.world.comps i).llhName) = some a := fun a ha => valueFor_ext hext ha
  have hconst : (E.opt cfg).kind = .constant → ∀ a,
      valueFor (step E (run E s0 ops) (.setConfig (.dict e))).1.conf (E.opt cfg).conf.name (some (s'.world.comps i).llhName) = some a →
      inst.get? (E.opt cfg).conf.name = some (.value a) := by
    intro hk a ha
    unfold Holds at b2
    rw [hk] at b2
    obtain ⟨a', rfl, ha'⟩ := b2
    have := hval a ha
    rw [ha'] at this
    cases this
    exact b1
  refine ⟨?_, ?_, ?_⟩
  · intro hk q hq
    obtain ⟨v, hv, hst⟩ := hstored _ _ hq
    refine hconst hk _ ?_
    cases v with
    | dict d => exact absurd hst (by simp [Stored])
    | atom a =>
      cases hst
      show valueFor (setGlobal E.fs e _).1 _ _ = _
      unfold valueFor
      rw [hv]
  · intro hk d q hq hd
    obtain ⟨v, hv, hst⟩ := hstored _ _ hq
    refine hconst hk _ ?_
    cases v with
    | atom a => exact absurd hst (by simp [Stored])
    | dict d' =>
      obtain ⟨s1, s2, s3⟩ := hst
      obtain ⟨a, ha⟩ := s2 _ _ hd (by intro n h; cases h)
      obtain ⟨b', hb', hsa⟩ := s1 _ _ ha
      rw [hd] at hb'
      cases hb'
      cases hsa
      show valueFor (setGlobal E.fs e _).1 _ _ = _
      unfold valueFor
      rw [hv]
      exact ha
  · intro hk f hf
    obtain ⟨v, hv, hst⟩ := hstored _ _ hf
    cases v with
    | dict d => exact absurd hst (by simp [Stored])
    | atom a =>
      cases hst with
      | str _ path hp =>
        refine ⟨path, hp _ rfl, ?_⟩
        unfold Holds at b2
        rw [hk] at b2
        obtain ⟨q, rfl, hq⟩ := b2
        have := hval (.str path) (by
          show valueFor (setGlobal E.fs e _).1 _ _ = _
          unfold valueFor
          rw [hv])
        rw [hq] at this
        cases this
        exact b1

/-- **C105 (a SigmaMap cannot be changed).** Setting other files for a SigmaMap of a compiled component, by setting the option itself,
makes every further compilation of the component fail until the cache is cleared. -/
theorem C105_sigma_stuck (E : Env) (s0 : State) (h0 : Fresh s0) (ops : List Op) (h1 : Op.clear ∉ ops) (i : Nat)
    (hcfg : ∀ n p, E.ns.get? n = some p → (p.configs.map (fun cfg => (E.opt cfg).conf.name)).Nodup)
    (hok : (step E (run E s0 ops) (.compile i)).2 = .ok ())
    (s1 : State) (hs1 : s1 = (step E (run E s0 ops) (.compile i)).1)
    (code : Code) (hcode : (s1.world.comps i).simulate = some code) (w : Work) (hw : w ∈ code.works) (p : Plugin) (hp : E.ns.get? w.name = some p)
    (cfg : Cfg) (hc : cfg ∈ p.configs) (hk : (E.opt cfg).kind = .sigma)
    (inst : Inst) (hinst : instanceOf s1 i w.name = some inst) (files : List String) (hfiles : inst.get? (E.opt cfg).conf.name = some (.files files))
    (hdict : ∀ sg ∈ ["median", "lower", "upper"], ∀ a, s1.conf.data.get? (subName (E.opt cfg).conf.name sg) ≠ some (.atom a))
    (e : List (String × CVal)) (hn : (e.map Prod.fst).Nodup) (hdn : ∀ k d, (k, CVal.dict d) ∈ e → d.keys.Nodup)
    (hub : "url_base" ∉ e.map Prod.fst) (hsub : ∀ sg ∈ ["median", "lower", "upper"], subName (E.opt cfg).conf.name sg ∉ e.map Prod.fst)
    (hset : (step E s1 (.setConfig (.dict e))).2 = .ok ()) (a : Atom)
    (hnew : valueFor (step E s1 (.setConfig (.dict e))).1.conf (E.opt cfg).conf.name (some (s1.world.comps i).llhName) = some a)
    (k : Nat) (old : String) (new : Atom) (hold : files[k]? = some old) (hval : sigmaValue a k = .ok new) (hne : new ≠ .str old) :
    (step E (step E s1 (.setConfig (.dict e))).1 (.compile i)).2 ≠ .ok () := by
  have hrun1 : run E s0 (ops ++ [.compile i]) = s1 := by rw [run_append, hs1]; rfl
  have hrun2 : run E s0 (ops ++ [.compile i] ++ [.setConfig (.dict e)]) = (step E s1 (.setConfig (.dict e))).1 := by
    rw [run_append, hrun1]; rfl
  have hclear2 : Op.clear ∉ ops ++ [.compile i] ++ [.setConfig (.dict e)] := by simp [h1]
  -- the files held by the instance are those fixed in the cache
  obtain ⟨code', c1, c2, c3⟩ := C105_compile_reads_current E s0 h0 ops h1 i hcfg hok
  rw [← hs1] at c1 c2 c3
  rw [hcode] at c1
  cases c1
  obtain ⟨p', inst', q1, q2, q3⟩ := c3 w hw
  rw [hp] at q1; cases q1
  rw [hinst] at q2; cases q2
  obtain ⟨b, b1, b2⟩ := q3 cfg hc
  rw [hfiles] at b1; cases b1
  unfold Holds at b2
  rw [hk] at b2
  obtain ⟨l, hl, hfa⟩ := b2
  cases hl
  -- which of the three maps is concerned
  obtain ⟨sg, hsg, hsgm, hv⟩ : ∃ sg, (sg, k) ∈ [("median", 0), ("lower", 1), ("upper", 2)] ∧ sg ∈ ["median", "lower", "upper"] ∧
      valueFor s1.conf (subName (E.opt cfg).conf.name sg) (some (s1.world.comps i).llhName) = some (.str old) := by
    rcases hfa with _ | ⟨a0, hfa⟩
    rcases hfa with _ | ⟨a1, hfa⟩
    rcases hfa with _ | ⟨a2, hfa⟩
    cases hfa
    match k with
    | 0 => simp only [List.getElem?_cons_zero, Option.some.injEq] at hold; subst hold; exact ⟨"median", by simp, by simp, a0⟩
    | 1 => simp only [List.getElem?_cons_succ, List.getElem?_cons_zero, Option.some.injEq] at hold; subst hold; exact ⟨"lower", by simp, by simp, a1⟩
    | 2 => simp only [List.getElem?_cons_succ, List.getElem?_cons_zero, Option.some.injEq] at hold; subst hold; exact ⟨"upper", by simp, by simp, a2⟩
    | k + 3 => simp at hold
  have hkeep : ∀ sg ∈ ["median", "lower", "upper"], (step E s1 (.setConfig (.dict e))).1.conf.data.get? (subName (E.opt cfg).conf.name sg) =
      s1.conf.data.get? (subName (E.opt cfg).conf.name sg) := by
    intro sg hsg
    exact (C22_stores_what_was_given E.fs e s1.conf hn hdn hub hset).2 _ (hsub sg hsg)
  -- the second compilation
  have hinv2 := h0.sinv.run (E := E) _ hclear2
  have hsim : ((step E s1 (.setConfig (.dict e))).1.world.comps i) = s1.world.comps i := rfl
  have hinv1 := h0.sinv.run (E := E) (ops ++ [.compile i]) (by simp [h1])
  rw [hrun1] at hinv1
  rw [hrun2] at hinv2
  intro hok2
  simp only [step, compileStep] at hok2
  have hcode2 : ∃ id, (s1.world.comps i).target = some (id, code) := by
    have hi0 := h0.sinv.run (E := E) ops h1
    have hok' := hok
    simp only [step, compileStep] at hok'
    cases ht : ((run E s0 ops).world.comps i).target with
    | none => rw [ht] at hok'; cases hok'
    | some x =>
      obtain ⟨id, cd⟩ := x
      have hper := target_persist E (run E s0 ops) hi0 [.compile i] (by simp) i id cd ht
      have hr : run E (run E s0 ops) [.compile i] = s1 := by rw [hs1]; rfl
      rw [hr] at hper
      have hcomp : (Comp.step (run E s0 ops).world (.compile i)).2 = .ok () := by
        rw [ht] at hok'
        simp only at hok'
        split at hok'
        · cases hok'
        · split at hok'
          · cases hok'
          · split at hok'
            · cases hok'
            · rename_i hx; rw [hx]
      have hw1 : s1.world = (Comp.step (run E s0 ops).world (.compile i)).1 := by
        rw [hs1]
        simp only [step, compileStep, ht]
        rw [ht] at hok'
        simp only at hok'
        split
        · rename_i hm; rw [hm] at hok'; cases hok'
        · rename_i hm
          rw [hm] at hok'
          simp only at hok'
          split
          · rename_i hm2; rw [hm2] at hok'; cases hok'
          · split
            · rename_i hx; rw [hx] at hcomp; cases hcomp
            · rename_i hx; rw [hx]
      have := compile_own hi0.inv i id cd (hi0.live i id cd ht).1 ht hcomp
      rw [← hw1, hcode] at this
      cases this
      exact ⟨id, hper⟩
  obtain ⟨id, ht⟩ := hcode2
  rw [ht] at hok2
  simp only at hok2
  obtain ⟨_, _, l3, _⟩ := hinv1.live i id code ht
  cases hm : code.works.mapM (importClass E.ns) with
  | error x => rw [hm] at hok2; cases hok2
  | ok cls =>
    rw [hm] at hok2
    simp only at hok2
    have hmem : (w.name, p) ∈ cls := by
      have hf := (mapM_ok_iff _ _ _).1 hm
      clear hm hok2 l3 hcode ht c2 c3
      generalize code.works = ws at hw hf
      induction hf with
      | nil => simp at hw
      | @cons w' x ws xs hx _ ih =>
        rcases List.mem_cons.1 hw with rfl | hw
        · unfold importClass at hx
          rw [hp] at hx
          cases hx
          simp
        · exact List.mem_cons_of_mem _ (ih hw)
    have hb := makeAll_built E code.llhName code.compName cls (s1.globals id) (setGlobal E.fs e s1.conf).1
    have hmk : (makeAll E code.llhName code.compName cls (s1.globals id) (setGlobal E.fs e s1.conf).1).2.2 = .ok () := by
      simp only [setConfig] at hok2
      generalize makeAll E code.llhName code.compName cls (s1.globals id) (setGlobal E.fs e s1.conf).1 = g at *
      obtain ⟨c4, g4, r4⟩ := g
      cases r4 with
      | error x => cases hok2
      | ok u => rfl
    obtain ⟨c', bb, he, hbb⟩ := hb hmk _ hmem cfg hc
    simp only [buildOpt, hk] at hbb
    cases hsb : (sigmaBuild E.fs (E.opt cfg).conf (some code.llhName) c').2 with
    | error x => rw [hsb] at hbb; cases hbb
    | ok fl =>
      rw [l3] at hsb
      have hv2 : valueFor (setGlobal E.fs e s1.conf).1 (subName (E.opt cfg).conf.name sg) (some (s1.world.comps i).llhName) = some (.str old) := by
        unfold valueFor at hv ⊢
        rw [show (setGlobal E.fs e s1.conf).1.data.get? _ = _ from hkeep sg hsgm]
        exact hv
      refine C26_conflicting_files_raise E.fs (E.opt cfg).conf (s1.world.comps i).llhName c' a ?_ ?_ sg k hsg (.str old) new
        (valueFor_ext he hv2) hval (Ne.symm hne) fl hsb
      · exact getConfigs_of_valueFor _ _ _ _ _ (valueFor_ext he hnew)
      · intro sg' hsg' at' hat
        have hsg'' : sg' ∈ ["median", "lower", "upper"] := hsg'
        have hex : ∃ v, s1.conf.data.get? (subName (E.opt cfg).conf.name sg') = some v := by
          rcases hfa with _ | ⟨a0, hfa⟩
          rcases hfa with _ | ⟨a1, hfa⟩
          rcases hfa with _ | ⟨a2, hfa⟩
          have get : ∀ n x, valueFor s1.conf n (some (s1.world.comps i).llhName) = some x → ∃ v, s1.conf.data.get? n = some v := by
            intro n x hx
            unfold valueFor at hx
            cases hg : s1.conf.data.get? n with
            | none => rw [hg] at hx; cases hx
            | some v => exact ⟨v, rfl⟩
          simp only [List.mem_cons, List.not_mem_nil, or_false] at hsg''
          rcases hsg'' with rfl | rfl | rfl
          exacts [get _ _ a0, get _ _ a1, get _ _ a2]
        obtain ⟨v, hv0⟩ := hex
        have hv1 := hkeep sg' hsg''
        rw [hv0] at hv1
        cases v with
        | atom y => exact hdict sg' hsg'' y hv0
        | dict m =>
          obtain ⟨m', hm', _⟩ := (he _).2 m hv1
          rw [hm'] at hat
          cases hat

/-- **C105 (deduce again).** The advice that comes with `set_config`, to run `deduce` and `compile` again, cannot be followed: a
component that has been deduced cannot be deduced again, whatever is set in between, unless the cache is cleared. -/
theorem C105_deduce_again (E : Env) (s0 : State) (h0 : Fresh s0) (ops1 ops2 : List Op) (h1 : Op.clear ∉ ops1) (h2 : Op.clear ∉ ops2)
    (i : Nat) (a b : DeduceArgs) (hok : (step E (run E s0 ops1) (.deduce i a)).2 = .ok ()) :
    (step E (run E (step E (run E s0 ops1) (.deduce i a)).1 ops2) (.deduce i b)).2 ≠ .ok () := by
  have hinv := h0.sinv.run (E := E) ops1 h1
  generalize run E s0 ops1 = s at *
  have hinv1 := hinv.step (E := E) (.deduce i a) (by simp)
  obtain ⟨d, code, ht⟩ : ∃ d code, ((step E s (.deduce i a)).1.world.comps i).target = some (d, code) := by
    simp only [step, deduceStep, Comp.step] at hok ⊢
    cases hd : Comp.deduce (s.world.comps i) s.world.cache { a with required := requiredOf E (s.world.comps i).llhName s.conf } with
    | mk c r =>
      rw [hd] at hok
      simp only at hok
      subst hok
      obtain ⟨c', g'⟩ := c
      obtain ⟨deps, nd, _, _, rfl, _, _⟩ := deduce_ok_iff hd
      exact ⟨_, _, by simp [setComp]; exact ⟨rfl, rfl⟩⟩
  have hp := target_persist E _ hinv1 ops2 h2 i d code ht
  have hinv2 := hinv1.run (E := E) ops2 h2
  generalize run E (step E s (.deduce i a)).1 ops2 = t at *
  have hl := (hinv2.live i d code hp).1
  intro hok2
  simp only [step, deduceStep, Comp.step] at hok2
  cases hd : Comp.deduce (t.world.comps i) t.world.cache { b with required := requiredOf E (t.world.comps i).llhName t.conf } with
  | mk c r =>
    rw [hd] at hok2
    simp only at hok2
    subst hok2
    obtain ⟨c', g'⟩ := c
    obtain ⟨deps, nd, _, _, _, hnone, _⟩ := deduce_ok_iff hd
    rw [hl] at hnone
    cases hnone

/-- **C105 (file names).** A file name is not accepted as the argument of `set_config`, although it is documented: AttributeError, and
nothing is set. -/
theorem C105_file_name_refused (E : Env) (s : State) (name : String) : step E s (.setConfig (.name name)) = (s, .error .attributeError) := rfl

/-- **C105 (`url_base`).** A base that is not found as a file or directory, such as a web address, is refused: RuntimeError, and the
context is not made. -/
theorem C105_url_base_must_exist (E : Env) (s : State) (u : String) (e : List (String × CVal)) (hf : E.fs.isFile u = false)
    (ha : getAbspath E.fs u = none) (hx : E.fs.aux = none) (hm : E.fs.mongo u = none) (hu : s.conf.data.get? "url_base" = none) :
    step E s (.context (some (.atom (.str u))) e) = (s, .error .runtimeError) := by
  have : s.conf.data.has "url_base" = false := (has_false_iff _ _).2 hu
  simp [step, contextConfig, setGlobal, getFilePath, hf, this, getFileRest, ha, hx, hm]

/-- **C105 (creating a context).** The options of an instruction are set as `set_config` sets them, after `url_base` if the
instruction has one. -/
theorem C105_context_options (E : Env) (s : State) (e : List (String × CVal)) :
    step E s (.context none e) = step E s (.setConfig (.dict e)) ∧
    ∀ u, (step E s (.setConfig (.dict [("url_base", u)]))).2 = .ok () →
      step E s (.context (some u) e) = step E (step E s (.setConfig (.dict [("url_base", u)]))).1 (.setConfig (.dict e)) := by
  refine ⟨rfl, ?_⟩
  intro u hu
  simp only [step, setConfig, contextConfig] at hu ⊢
  generalize setGlobal E.fs [("url_base", u)] s.conf = g at *
  obtain ⟨c, r⟩ := g
  simp only at hu
  subst hu
  rfl

/-- **C105 (needed parameters).** After a successful deduce, the parameter that each SigmaMap of the component reads when it is
applied is among the needed parameters (options of the same name being the same option). -/
theorem C105_needed (E : Env) (hopt : ∀ c c', (E.opt c).conf.name = (E.opt c').conf.name → (E.opt c).conf = (E.opt c').conf)
    (s : State) (i : Nat) (a : DeduceArgs) (hok : (step E s (.deduce i a)).2 = .ok ()) :
    let s' := (step E s (.deduce i a)).1
    ∀ p ∈ (s'.world.comps i).worksheet, ∀ cfg ∈ p.configs, (E.opt cfg).kind = .sigma → ∀ x,
      appliedParameter s' (E.opt cfg) (s'.world.comps i).llhName = .ok (some (.str x)) → x ∈ (s'.world.comps i).needed := by
  intro s'
  have hs' : s' = (step E s (.deduce i a)).1 := rfl
  simp only [step, deduceStep, Comp.step] at hok hs'
  cases hd : Comp.deduce (s.world.comps i) s.world.cache { a with required := requiredOf E (s.world.comps i).llhName s.conf } with
  | mk cg r =>
    rw [hd] at hok hs'
    simp only at hok
    subst hok
    obtain ⟨c', g'⟩ := cg
    obtain ⟨deps, nd, h1, h2, rfl, _, _⟩ := deduce_ok_iff hd
    simp only at h1
    rw [h1] at hs'
    have hw : (s'.world.comps i).worksheet = worksheet deps := by rw [hs']; simp [setComp]
    have hn : (s'.world.comps i).needed = nd := by rw [hs']; simp [setComp]
    have hl : (s'.world.comps i).llhName = (s.world.comps i).llhName := by rw [hs']; simp [setComp]
    have hc : s'.conf = readRequired E (s.world.comps i).llhName ((worksheet deps).flatMap (fun p => p.configs)) s.conf := by rw [hs']
    rw [hw, hn, hl]
    intro p hp cfg hcfg hk x hx
    rw [(needLoop_ok _ _ _ _ _ h2).2 x]
    refine .inr ⟨p, hp, .inr ⟨cfg, hcfg, ?_⟩⟩
    unfold appliedParameter at hx
    rw [hc, requiredParameter_attr, requiredParameter_readRequired E hopt] at hx
    simp only [requiredOf, hk, hx]
    rfl

/-- **C105 (deduce reads the options).** After a successful deduce, the value of every SigmaMap option of the component is in the
cache: what was set, or else the default, which later counts as set. -/
theorem C105_deduce_stores_defaults (E : Env) (hopt : ∀ c c', (E.opt c).conf.name = (E.opt c').conf.name → (E.opt c).conf = (E.opt c').conf)
    (s : State) (i : Nat) (a : DeduceArgs) (hok : (step E s (.deduce i a)).2 = .ok ()) :
    let s' := (step E s (.deduce i a)).1
    ∀ p ∈ (s'.world.comps i).worksheet, ∀ cfg ∈ p.configs, (E.opt cfg).kind = .sigma →
      s'.conf.data.get? (E.opt cfg).conf.name =
        some ((s.conf.data.get? (E.opt cfg).conf.name).getD (.atom ((E.opt cfg).conf.default.getD (.num 0)))) := by
  intro s'
  have hs' : s' = (step E s (.deduce i a)).1 := rfl
  simp only [step, deduceStep, Comp.step] at hok hs'
  cases hd : Comp.deduce (s.world.comps i) s.world.cache { a with required := requiredOf E (s.world.comps i).llhName s.conf } with
  | mk cg r =>
    rw [hd] at hok hs'
    simp only at hok
    subst hok
    obtain ⟨c', g'⟩ := cg
    obtain ⟨deps, nd, h1, h2, rfl, _, _⟩ := deduce_ok_iff hd
    simp only at h1
    rw [h1] at hs'
    have hw : (s'.world.comps i).worksheet = worksheet deps := by rw [hs']; simp [setComp]
    have hc : s'.conf = readRequired E (s.world.comps i).llhName ((worksheet deps).flatMap (fun p => p.configs)) s.conf := by rw [hs']
    rw [hw, hc]
    intro p hp cfg hcfg hk
    refine readRequired_stores E hopt _ _ _ ?_ cfg (List.mem_flatMap.2 ⟨p, hp, hcfg⟩) hk
    intro x hx hxk
    obtain ⟨q, hq, hxq⟩ := List.mem_flatMap.1 hx
    obtain ⟨v, hv⟩ := needLoop_required _ _ _ _ _ h2 q hq x hxq
    simp only [requiredOf, hxk] at hv
    cases hr : (requiredParameter (E.opt x).conf none (some (s.world.comps i).llhName) s.conf).2 with
    | error e => rw [hr] at hv; cases hv
    | ok w => exact ⟨w, rfl⟩

/-- A session for the examples: a plugin with a constant `w` (default 1), a constant `v` without default and a SigmaMap `m`. -/
def exPlugin : Plugin := ⟨"P", ["a"], ["batch_size"], [], [⟨"w", some "1"⟩, ⟨"m", some "b.json"⟩]⟩

def exEnv : Env where
  fs := exFS
  ns := [("P", exPlugin)]
  opt := fun c => if c.name = "m" then ⟨.sigma, ⟨"m", some (.str "b.json")⟩⟩ else ⟨.constant, ⟨c.name, some (.num 1)⟩⟩

def exStart : State where
  world := ⟨fun _ => { name := "er", llhName := "sci", rateName := "", registry := [("a", exPlugin)] }, {}⟩

def exDeduce : Op := .deduce 0 { dataNames := ["a"], force := true, fuel := 5 }

/-- Non-vacuity of C105: the component is deduced and compiled; the constant is set and it is compiled again. -/
example : Fresh exStart ∧ (run exEnv exStart [exDeduce, .compile 0]).sees 0 = some 0 ∧
    instanceOf (run exEnv exStart [exDeduce, .compile 0]) 0 "P" =
      some [("w", .value (.num 1)), ("m", .files ["b.json", "b.json", "b.json"])] ∧
    instanceOf (run exEnv exStart [exDeduce, .compile 0, .setConfig (.dict [("w", .atom (.num 5))])]) 0 "P" =
      some [("w", .value (.num 1)), ("m", .files ["b.json", "b.json", "b.json"])] ∧
    instanceOf (run exEnv exStart [exDeduce, .compile 0, .setConfig (.dict [("w", .atom (.num 5))]), .compile 0]) 0 "P" =
      some [("w", .value (.num 5)), ("m", .files ["b.json", "b.json", "b.json"])] ∧
    (step exEnv (run exEnv exStart [exDeduce, .compile 0, .setConfig (.dict [("w", .atom (.num 5))])]) exDeduce).2 = .error .runtimeError := by
  refine ⟨⟨⟨rfl, fun _ => rfl⟩, fun _ => rfl⟩, ?_⟩
  decide +kernel

/-- The full claim fails for a SigmaMap: naming the very file that is in use makes the next compilation fail with a ValueError, because
the name is then compared with the path that was found for it. -/
theorem C105_same_file_refused :
    let s := run exEnv exStart [exDeduce, .compile 0]
    let t := step exEnv s (.setConfig (.dict [("m", .atom (.str "b.json"))]))
    t.2 = .ok () ∧ (step exEnv t.1 (.compile 0)).2 = .error .valueError := by
  decide +kernel

/-- The full claim fails for the parameter of a SigmaMap: it is looked up when the map is applied, so that setting the option changes
what a compiled simulator reads, while the maps stay the old ones. -/
theorem C105_scaler_not_frozen :
    let o : Opt := ⟨.sigma, ⟨"m", some (.str "b.json")⟩⟩
    let s := run exEnv exStart [exDeduce, .compile 0]
    let t := run exEnv s [.setConfig (.dict [("m", .atom (.list [.str "x", .str "y", .str "z", .str "t"]))])]
    instanceOf t 0 "P" = instanceOf s 0 "P" ∧ appliedParameter s o "sci" = .ok none ∧ appliedParameter t o "sci" = .ok (some (.str "t")) := by
  decide +kernel

/-- Clearing the cache, the only way to deduce again, forgets the options that were set: the component is compiled with the defaults. -/
theorem C105_clear_forgets :
    let set5 : Op := .setConfig (.dict [("w", .atom (.num 5))])
    (instanceOf (run exEnv exStart [set5, exDeduce, .compile 0]) 0 "P").bind (fun i => i.get? "w") = some (.value (.num 5)) ∧
    (instanceOf (run exEnv exStart [set5, .clear, exDeduce, .compile 0]) 0 "P").bind (fun i => i.get? "w") = some (.value (.num 1)) := by
  decide +kernel

/-- Options outlive the context they were given for: a context whose instruction does not mention an option uses what an earlier
context of the session set, and not the default. -/
theorem C105_options_leak_between_contexts :
    (instanceOf (run exEnv exStart [.context none [], exDeduce, .compile 0]) 0 "P").bind (fun i => i.get? "w") = some (.value (.num 1)) ∧
    (instanceOf (run exEnv exStart [.context none [("w", .atom (.num 5))], .context none [], exDeduce, .compile 0]) 0 "P").bind
      (fun i => i.get? "w") = some (.value (.num 5)) := by
  decide +kernel

/-- Non-vacuity of C105_needed and C105_deduce_stores_defaults: the options of `exEnv` are told apart by their names, and with a scaler
given the parameter is needed. -/
example :
    (∀ c c', (exEnv.opt c).conf.name = (exEnv.opt c').conf.name → (exEnv.opt c).conf = (exEnv.opt c').conf) ∧
    (let s := run exEnv exStart [.setConfig (.dict [("m", .atom (.list [.str "b.json", .str "b.json", .str "b.json", .str "t"]))])]
     let t := step exEnv s exDeduce
     t.2 = .ok () ∧ appliedParameter t.1 ⟨.sigma, ⟨"m", some (.str "b.json")⟩⟩ "sci" = .ok (some (.str "t")) ∧
       (t.1.world.comps 0).needed = ["t"]) ∧
    (let t := step exEnv exStart exDeduce
     t.2 = .ok () ∧ t.1.conf.data.get? "m" = some (.atom (.str "b.json")) ∧ (t.1.world.comps 0).needed = []) := by
  refine ⟨?_, by decide +kernel⟩
  intro c c' h
  by_cases h1 : c.name = "m" <;> by_cases h2 : c'.name = "m" <;> simp_all [exEnv]

/-- Non-vacuity of C105_context_options: a base that is a directory. -/
example : (step exEnv exStart (.setConfig (.dict [("url_base", .atom (.num 1))]))).2 = .ok () := by decide +kernel

/-- Non-vacuity of C105_url_base_must_exist. -/
example : step exEnv exStart (.context (some (.atom (.str "https://x.org"))) []) = (exStart, .error .runtimeError) :=
  C105_url_base_must_exist exEnv exStart "https://x.org" [] (by decide +kernel) (by decide +kernel) rfl rfl rfl

/-- Non-vacuity of C105_set_then_compile and C105_sigma_stuck: what they assume holds in the example session. -/
example :
    let s := run exEnv exStart [exDeduce, .compile 0]
    let t := step exEnv s (.setConfig (.dict [("m", .atom (.str "b.json")), ("w", .dict [("sci", .num 7)])]))
    (step exEnv (run exEnv exStart [exDeduce]) (.compile 0)).2 = .ok () ∧ (∀ p ∈ exEnv.ns, (p.2.configs.map (fun cfg => (exEnv.opt cfg).conf.name)).Nodup) ∧
    t.2 = .ok () ∧ ((s.world.comps 0).simulate.map (fun code => code.works.map (·.name))) = some ["P"] ∧
    (s.conf.data.get? "m_median", s.conf.data.get? "m_lower", s.conf.data.get? "m_upper") =
      (some (.dict [("sci", .str "b.json")]), some (.dict [("sci", .str "b.json")]), some (.dict [("sci", .str "b.json")])) ∧
    valueFor t.1.conf "m" (some "sci") = some (.str "/p/maps/b.json") ∧ sigmaValue (.str "/p/maps/b.json") 0 = .ok (.str "/p/maps/b.json") ∧
    (step exEnv t.1 (.compile 0)).2 ≠ .ok () ∧
    (step exEnv (step exEnv s (.setConfig (.dict [("w", .dict [("sci", .num 7)])]))).1 (.compile 0)).2 = .ok () := by
  decide +kernel

/-- **C105 (deduce keeps options).** `deduce`, whether it succeeds or raises an error, leaves every stored option as it was. -/
theorem C105_deduce_keeps (E : Env) (s : State) (i : Nat) (a : DeduceArgs) (k : String) :
    (∀ x, s.conf.data.get? k = some (.atom x) → (step E s (.deduce i a)).1.conf.data.get? k = some (.atom x)) ∧
    (∀ m, s.conf.data.get? k = some (.dict m) → ∃ m', (step E s (.deduce i a)).1.conf.data.get? k = some (.dict m') ∧
      ∀ l x, m.get? l = some x → m'.get? l = some x) := by
  have hread : ∀ (llh : String) (l : List Cfg) (c : Cache), Ext c.data (readRequired E llh l c).data := by
    intro llh l
    induction l with
    | nil => intro c; exact Ext.refl _
    | cons x l ih =>
      intro c
      unfold readRequired
      cases hk : (E.opt x).kind with
      | constant => exact ih c
      | map => exact ih c
      | sigma =>
        simp only
        have h := requiredParameter_ext (E.opt x).conf none (some llh) c
        generalize requiredParameter (E.opt x).conf none (some llh) c = g at *
        obtain ⟨c1, r⟩ := g
        cases r with
        | error e => exact h
        | ok y => exact h.trans (ih c1)
  have : Ext s.conf.data (step E s (.deduce i a)).1.conf.data := by
    simp only [step, deduceStep]
    cases deduceDeps (s.world.comps i).registry a.nodep a.fuel (outNames a.dataNames a.force) [] with
    | error e => exact Ext.refl _
    | ok deps => exact hread _ _ _
  exact this k

/-- Non-vacuity of C105 (deduce keeps options): a `deduce` that fails, after an option was set. -/
example : let s := run exEnv exStart [.setConfig (.dict [("w", .atom (.num 5))]), exDeduce]
    (step exEnv s exDeduce).2 ≠ .ok () ∧ (step exEnv s exDeduce).1.conf.data.get? "w" = some (.atom (.num 5)) := by decide +kernel

end Verif.Session
