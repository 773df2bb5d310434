/- Helper lemmas about component objects and the function cache (not claims). -/
import Verif.Lemmas.Codegen
import Verif.Model.Component

namespace Verif.Comp
open Verif

/-! ### Registration -/

theorem get?_addProvides (reg : Registry) (p : Plugin) (d : String) :
    (addProvides reg p).get? d = if d ∈ p.provides then some p else reg.get? d := by
  unfold addProvides
  generalize p.provides = ds
  induction ds generalizing reg with
  | nil => simp
  | cons x ds ih =>
    rw [List.foldl_cons, ih, PyDict.get?_set]
    by_cases h1 : d ∈ ds
    · simp [h1]
    · by_cases h2 : x = d
      · subst h2; simp
      · have h3 : ¬ d = x := fun h => h2 h.symm
        simp [h1, h2, h3]

theorem nodup_addProvides (reg : Registry) (p : Plugin) (h : reg.keys.Nodup) :
    (addProvides reg p).keys.Nodup := by
  unfold addProvides
  generalize p.provides = ds
  induction ds generalizing reg with
  | nil => exact h
  | cons x ds ih => exact ih _ (PyDict.nodup_set _ _ _ h)

/-! ### Needed parameters -/

theorem cfgLoop_ok {required : Cfg → Res (Option String)} (cs : List Cfg) (nd nd' : List String)
    (h : cfgLoop required cs nd = (nd', .ok ())) (q : String) :
    q ∈ nd' ↔ q ∈ nd ∨ ∃ c ∈ cs, required c = .ok (some q) := by
  induction cs generalizing nd with
  | nil => simp only [cfgLoop, Prod.mk.injEq, and_true] at h; subst h; simp
  | cons c cs ih =>
    simp only [cfgLoop] at h
    split at h
    · cases h
    · rename_i hr
      rw [ih _ h]
      simp [hr]
    · rename_i q' hr
      rw [ih _ h]
      have hq : (some q' = some q) ↔ q = q' := by rw [Option.some.injEq, eq_comm]
      simp only [List.mem_append, List.mem_singleton, List.mem_cons, exists_eq_or_imp, hr,
        Except.ok.injEq, hq, or_assoc, List.not_mem_nil, false_or]

theorem needLoop_ok {required : Cfg → Res (Option String)} (ps ws ws' : List Plugin)
    (nd nd' : List String) (h : needLoop required ps ws nd = ((ws', nd'), .ok ())) :
    ws' = ws ++ ps ∧ ∀ q, q ∈ nd' ↔ q ∈ nd ∨
      ∃ p ∈ ps, q ∈ p.parameters ∨ ∃ c ∈ p.configs, required c = .ok (some q) := by
  induction ps generalizing ws nd with
  | nil =>
    simp only [needLoop, Prod.mk.injEq, and_true] at h
    obtain ⟨rfl, rfl⟩ := h
    simp
  | cons p ps ih =>
    simp only [needLoop] at h
    split at h
    · cases h
    · rename_i nd1 hc
      obtain ⟨h1, h2⟩ := ih _ _ h
      refine ⟨by simp [h1], fun q => ?_⟩
      rw [h2, cfgLoop_ok _ _ _ hc]
      simp only [List.mem_append, List.mem_cons, exists_eq_or_imp, or_assoc]

/-- What a successful `deduce` did. -/
theorem deduce_ok_iff {c c' : Comp} {g g' : FnCache} {a : DeduceArgs}
    (h : deduce c g a = ((c', g'), .ok ())) :
    ∃ deps nd, deduceDeps c.registry a.nodep a.fuel (outNames a.dataNames a.force) [] = .ok deps ∧
      needLoop a.required (worksheet deps) [] (if c.rateName = "" then [] else [c.rateName])
        = ((worksheet deps, nd), .ok ()) ∧
      c' = { c with
        forceNoEff := a.force || c.forceNoEff
        worksheet := worksheet deps
        needed := nd
        funcName := some a.funcName
        code := some (genCode c.name c.llhName (worksheet deps) (outNames a.dataNames a.force)
          a.funcName a.nodep)
        target := some (g.heap.length, genCode c.name c.llhName (worksheet deps)
          (outNames a.dataNames a.force) a.funcName a.nodep) } ∧
      g.cache.get? c.llhName = none ∧
      g' = { cache := g.cache.set c.llhName g.heap.length, heap := g.heap ++ [[]] } := by
  unfold deduce at h
  simp only at h
  split at h
  · cases h
  · rename_i deps hd
    split at h
    · cases h
    · rename_i ws nd hn
      split at h
      · cases h
      · rename_i hc
        simp only [Prod.mk.injEq, and_true] at h
        obtain ⟨rfl, rfl⟩ := h
        have hw := (needLoop_ok _ _ _ _ _ hn).1
        simp only [List.nil_append] at hw
        subst hw
        refine ⟨deps, nd, hd, hn, rfl, ?_, rfl⟩
        simpa [PyDict.has] using hc

/-- A failed `deduce` leaves the function cache and the compile target alone. -/
theorem deduce_error {c c' : Comp} {g g' : FnCache} {a : DeduceArgs} {e : PyErr}
    (h : deduce c g a = ((c', g'), .error e)) :
    g' = g ∧ c'.target = c.target ∧ c'.llhName = c.llhName ∧ c'.simulate = c.simulate := by
  unfold deduce at h
  simp only at h
  split at h
  · cases h; simp
  · split at h
    · cases h; simp
    · split at h
      · cases h; simp
      · cases h

/-! ### Compiling -/

theorem compile_spec {c c' : Comp} {g g' : FnCache} {r : Res Unit} (h : compile c g = ((c', g'), r)) :
    c'.target = c.target ∧ c'.llhName = c.llhName ∧ c'.funcName = c.funcName ∧ g'.cache = g.cache ∧
      (c.target = none → g' = g) ∧
      ∀ id code, c.target = some (id, code) →
        g'.heap = g.heap.modify id (fun d => d.set code.funcName code) := by
  unfold compile at h
  split at h
  · rename_i ht; cases h; simp [ht]
  · rename_i id code ht
    simp only at h
    split at h
    · cases h; simp [ht]
    · split at h
      · cases h; simp [ht]
      · cases h; simp [ht]

/-- The dictionary captured by a component only ever holds that component's code. -/
structure Inv (w : World) : Prop where
  own : ∀ i id code, (w.comps i).target = some (id, code) →
    id < w.cache.heap.length ∧
    ∀ f c, (w.cache.heap[id]?.getD []).get? f = some c → c = code
  sep : ∀ i j id c1 c2, (w.comps i).target = some (id, c1) → (w.comps j).target = some (id, c2) → i = j

/-- A world before any operation. -/
def Fresh (w : World) : Prop :=
  w.cache = {} ∧ ∀ i, (w.comps i).target = none

theorem Fresh.inv {w : World} (h : Fresh w) : Inv w where
  own := by intro i id code ht; rw [h.2 i] at ht; cases ht
  sep := by intro i j id c1 c2 h1; rw [h.2 i] at h1; cases h1

theorem Inv.step {w : World} (hw : Inv w) (o : Op) : Inv (step w o).1 := by
  cases o with
  | clear => exact ⟨hw.own, hw.sep⟩
  | compile i =>
    simp only [Comp.step]
    cases hc : compile (w.comps i) w.cache with
    | mk s r =>
      obtain ⟨c', g'⟩ := s
      obtain ⟨ht, _, _, _, hnone, hsome⟩ := compile_spec hc
      have htarget : ∀ j, (setComp w.comps i c' j).target = (w.comps j).target := by
        intro j; unfold setComp; split
        · rename_i hj; subst hj; exact ht
        · rfl
      refine ⟨?_, ?_⟩
      · intro j id code hj
        rw [htarget] at hj
        obtain ⟨h1, h2⟩ := hw.own j id code hj
        cases hti : (w.comps i).target with
        | none => rw [hnone hti]; exact ⟨h1, h2⟩
        | some t =>
          obtain ⟨id', code'⟩ := t
          rw [hsome id' code' hti]
          refine ⟨by simpa using h1, ?_⟩
          intro f c hf
          by_cases hid : id' = id
          · subst hid
            have hij := hw.sep i j id' _ _ hti hj
            subst hij
            rw [hti] at hj; cases hj
            rw [List.getElem?_modify_eq, List.getElem?_eq_getElem h1] at hf
            simp only [Option.map_eq_map, Option.map_some, Option.getD_some] at hf
            rw [PyDict.get?_set] at hf
            split at hf
            · cases hf; rfl
            · apply h2 f c
              rw [List.getElem?_eq_getElem h1]; exact hf
          · rw [List.getElem?_modify_ne _ _ hid] at hf
            exact h2 f c hf
      · intro j k id c1 c2 h1 h2
        rw [htarget] at h1 h2
        exact hw.sep j k id c1 c2 h1 h2
  | deduce i a =>
    simp only [Comp.step]
    cases hd : deduce (w.comps i) w.cache a with
    | mk s r =>
      obtain ⟨c', g'⟩ := s
      cases r with
      | error e =>
        obtain ⟨rfl, ht, _, _⟩ := deduce_error hd
        have htarget : ∀ j, (setComp w.comps i c' j).target = (w.comps j).target := by
          intro j; unfold setComp; split
          · rename_i hj; subst hj; exact ht
          · rfl
        refine ⟨?_, ?_⟩
        · intro j id code hj; rw [htarget] at hj; exact hw.own j id code hj
        · intro j k id c1 c2 h1 h2; rw [htarget] at h1 h2; exact hw.sep j k id c1 c2 h1 h2
      | ok u =>
        obtain ⟨deps, nd, _, _, rfl, _, rfl⟩ := deduce_ok_iff hd
        refine ⟨?_, ?_⟩
        · intro j id code hj
          simp only [setComp] at hj
          simp only [List.length_append, List.length_singleton]
          split at hj
          · simp only [Option.some.injEq, Prod.mk.injEq] at hj
            obtain ⟨rfl, rfl⟩ := hj
            refine ⟨by omega, ?_⟩
            intro f c hf
            simp at hf
          · obtain ⟨h1, h2⟩ := hw.own j id code hj
            refine ⟨by omega, ?_⟩
            intro f c hf
            rw [List.getElem?_append_left h1] at hf
            exact h2 f c hf
        · intro j k id c1 c2 h1 h2
          simp only [setComp] at h1 h2
          split at h1 <;> split at h2
          · omega
          · simp only [Option.some.injEq, Prod.mk.injEq] at h1
            have := (hw.own k id c2 h2).1
            omega
          · simp only [Option.some.injEq, Prod.mk.injEq] at h2
            have := (hw.own j id c1 h1).1
            omega
          · exact hw.sep j k id c1 c2 h1 h2

theorem Inv.runOps {w : World} (hw : Inv w) (ops : List Op) : Inv (runOps w ops) := by
  unfold Comp.runOps
  induction ops generalizing w with
  | nil => exact hw
  | cons o ops ih => exact ih (hw.step o)

/-- Without clearing, the cached dictionary of a likelihood and the compile target of the component that
deduced it stay, and likelihood names never change. -/
theorem live_step {w : World} (i id : Nat) (code : Code) (o : Op) (ho : o ≠ .clear)
    (hc : w.cache.cache.get? (w.comps i).llhName = some id) (ht : (w.comps i).target = some (id, code)) :
    (step w o).1.cache.cache.get? ((step w o).1.comps i).llhName = some id ∧
      ((step w o).1.comps i).target = some (id, code) := by
  cases o with
  | clear => exact absurd rfl ho
  | compile j =>
    simp only [Comp.step]
    cases hcc : compile (w.comps j) w.cache with
    | mk s r =>
      obtain ⟨c', g'⟩ := s
      obtain ⟨h1, h2, _, h4, _, _⟩ := compile_spec hcc
      simp only [setComp]
      split
      · rename_i hij; subst hij
        exact ⟨by rw [h4, h2]; exact hc, by rw [h1]; exact ht⟩
      · exact ⟨by rw [h4]; exact hc, ht⟩
  | deduce j a =>
    simp only [Comp.step]
    cases hd : deduce (w.comps j) w.cache a with
    | mk s r =>
      obtain ⟨c', g'⟩ := s
      cases r with
      | error e =>
        obtain ⟨rfl, h1, h2, _⟩ := deduce_error hd
        simp only [setComp]
        split
        · rename_i hij; subst hij
          exact ⟨by rw [h2]; exact hc, by rw [h1]; exact ht⟩
        · exact ⟨hc, ht⟩
      | ok u =>
        obtain ⟨deps, nd, _, _, rfl, hnone, rfl⟩ := deduce_ok_iff hd
        have hne : (w.comps j).llhName ≠ (w.comps i).llhName := by
          intro heq; rw [heq, hc] at hnone; cases hnone
        simp only [setComp]
        split
        · rename_i hij; subst hij; exact absurd rfl hne
        · exact ⟨by rw [PyDict.get?_set_ne _ _ hne]; exact hc, ht⟩

theorem live_runOps {w : World} (i id : Nat) (code : Code) (ops : List Op) (ho : Op.clear ∉ ops)
    (hc : w.cache.cache.get? (w.comps i).llhName = some id) (ht : (w.comps i).target = some (id, code)) :
    (runOps w ops).cache.cache.get? ((runOps w ops).comps i).llhName = some id ∧
      ((runOps w ops).comps i).target = some (id, code) := by
  unfold Comp.runOps
  induction ops generalizing w with
  | nil => exact ⟨hc, ht⟩
  | cons o ops ih =>
    obtain ⟨h1, h2⟩ := live_step i id code o (fun h => ho (by simp [h])) hc ht
    exact ih (fun h => ho (by simp [h])) h1 h2

theorem compile_own {w : World} (hw : Inv w) (i id : Nat) (code : Code)
    (hc : w.cache.cache.get? (w.comps i).llhName = some id) (ht : (w.comps i).target = some (id, code))
    (hok : (step w (.compile i)).2 = .ok ()) :
    ((step w (.compile i)).1.comps i).simulate = some code := by
  have hinv := hw.step (.compile i)
  have hlive := live_step (w := w) i id code (.compile i) (by simp) hc ht
  have hown := (hinv.own i id code hlive.2).2
  simp only [Comp.step] at hok hown ⊢
  unfold compile at hok hown ⊢
  rw [ht] at hok hown ⊢
  simp only [hc] at hok hown ⊢
  split at hok
  · cases hok
  · rename_i f hf
    rw [hf] at hown
    simp only [setComp, if_true] at hown ⊢
    rw [hown _ _ hf]

end Verif.Comp
