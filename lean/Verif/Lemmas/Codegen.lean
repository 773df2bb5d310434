/- Helper lemmas about the generated simulation code (not claims). -/
import Verif.Lemmas.Deps
import Verif.Model.Codegen
import Verif.Spec.Eval
import Verif.Base.MapM

namespace Verif.Comp
open Verif

theorem instantiate_ok (ns : PyDict String Plugin) (ws : List Plugin)
    (hns : ∀ p ∈ ws, ns.get? p.name = some p)
    (hne : ∀ p ∈ ws, p.dependsOn ≠ [] ∧ p.provides ≠ [])
    (hnd : (ws.map Plugin.name).Nodup) :
    ∃ inst, instantiate ns (ws.map Work.ofPlugin) = .ok inst ∧
      ∀ p ∈ ws, inst.get? p.name = some p := by
  have h1 : (ws.map Work.ofPlugin).mapM (importClass ns) = .ok (ws.map (fun p => (p.name, p))) := by
    rw [mapM_ok_iff, List.forall₂_map_left_iff, List.forall₂_map_right_iff, List.forall₂_same]
    intro p hp
    simp only [Work.ofPlugin, importClass, hns p hp]
  have hkeys : (ws.map (fun p => (p.name, p))).map Prod.fst = ws.map Plugin.name := by
    simp [Function.comp_def]
  refine ⟨ws.map (fun p => (p.name, p)), ?_, ?_⟩
  · unfold instantiate
    rw [h1]
    simp only [bind, Except.bind]
    rw [if_neg, PyDict.ofList_of_nodup _ (by rw [hkeys]; exact hnd)]
    simp only [List.any_map, List.any_eq_true, Function.comp_apply, Bool.or_eq_true,
      decide_eq_true_eq, not_exists, not_and, not_or]
    exact hne
  · intro p hp
    apply PyDict.get?_of_mem
    · rw [PyDict.keys, hkeys]; exact hnd
    · exact List.mem_map.2 ⟨p, hp, rfl⟩

section
variable {K V : Type} {reg : Registry} {nodep : String}

/-- Executing the rest of the worksheet from a state in which everything provided so far is bound. -/
theorem runWorks_spec (inst : PyDict String Plugin) (sem : Plugin → K → List V → Res (K × List V))
    (input : V) (needed : String → Prop) (ws : List Plugin)
    (hinst : ∀ p ∈ ws, inst.get? p.name = some p)
    (hsem : ∀ p ∈ ws, ∀ k args, args.length = p.dependsOn.length →
      ∃ k' outs, sem p k args = .ok (k', outs) ∧ outs.length = p.provides.length)
    (hnd : ∀ p ∈ ws, p.provides.Nodup)
    (hnodep : ∀ p ∈ ws, nodep ∉ p.provides)
    (hnn : ¬ needed nodep)
    (hprov : ∀ p ∈ ws, ∀ d ∈ p.provides, needed d → reg.get? d = some p)
    (hwf : ∀ d p, needed d → reg.get? d = some p → d ∈ p.provides)
    (hdistinct : ws.Nodup)
    (htopo : ∀ pre p post, ws = pre ++ p :: post → ∀ e ∈ p.dependsOn, e = nodep ∨
      (needed e ∧ ∃ q ∈ pre, reg.get? e = some q))
    (rest pre : List Plugin) (hsplit : ws = pre ++ rest) (key : K) (env : PyDict String V)
    (henv : env.get? nodep = some input)
    (hbound : ∀ d q, needed d → reg.get? d = some q → q ∈ pre → ∃ v, env.get? d = some v) :
    ∃ key' env', runWorks inst sem (rest.map Work.ofPlugin) (key, env) = .ok (key', env') ∧
      env'.get? nodep = some input ∧
      (∀ d q, needed d → reg.get? d = some q → q ∈ pre → env'.get? d = env.get? d) ∧
      (∀ d q, needed d → reg.get? d = some q → q ∈ ws → ∃ v, env'.get? d = some v) ∧
      Evaluates sem needed (fun d => (env'.get? d).getD input) rest key key' := by
  induction rest generalizing pre key env with
  | nil =>
    refine ⟨key, env, rfl, henv, fun _ _ _ _ _ => rfl, ?_, .nil⟩
    intro d q hn hg hq
    exact hbound d q hn hg (by rw [hsplit] at hq; simpa using hq)
  | cons p rest ih =>
    have hp : p ∈ ws := by rw [hsplit]; simp
    have hdeps : ∀ e ∈ p.dependsOn, e = nodep ∨ (needed e ∧ ∃ q ∈ pre, reg.get? e = some q) :=
      htopo pre p rest hsplit
    have hread : ∀ e ∈ p.dependsOn, readVar env e = .ok ((env.get? e).getD input) := by
      intro e he
      rcases hdeps e he with rfl | ⟨hn, q, hq, hg⟩
      · simp [readVar, henv]
      · obtain ⟨v, hv⟩ := hbound e q hn hg hq
        simp [readVar, hv]
    have hargs := mapM_ok_of_forall (readVar env) _ p.dependsOn hread
    obtain ⟨k1, outs, hs, hlen⟩ := hsem p hp key (p.dependsOn.map (fun e => (env.get? e).getD input))
      (by simp)
    let env1 := env.update (p.provides.zip outs)
    have hfst : (p.provides.zip outs).map Prod.fst = p.provides :=
      List.map_fst_zip (by omega)
    have hrun1 : runWork inst sem (Work.ofPlugin p) (key, env) = .ok (k1, env1) := by
      simp only [runWork, Work.ofPlugin, hinst p hp]
      simp only [bind, Except.bind, hargs, hs, hlen, if_true, env1]
    have hout : ∀ (i : Nat) (d : String), p.provides[i]? = some d → env1.get? d = outs[i]? := by
      intro i d hi
      obtain ⟨hi1, hi2⟩ := List.getElem?_eq_some_iff.1 hi
      have hi3 : i < outs.length := by omega
      rw [List.getElem?_eq_getElem hi3]
      apply PyDict.get?_update_nodup
      · rw [hfst]; exact hnd p hp
      · rw [List.mem_iff_getElem]
        exact ⟨i, by simp; omega, by simp [hi2]⟩
    have hkeep : ∀ d, d ∉ p.provides → env1.get? d = env.get? d := by
      intro d hd
      exact PyDict.get?_update_not_mem _ _ _ (by rw [hfst]; exact hd)
    have hpnot : p ∉ pre := by
      rw [hsplit] at hdistinct
      intro hc
      exact (List.nodup_append.1 hdistinct).2.2 p hc p (by simp) rfl
    have hpre : ∀ d q, needed d → reg.get? d = some q → q ∈ pre → d ∉ p.provides := by
      intro d q hn hg hq hc
      have := hprov p hp d hc hn
      rw [hg] at this; cases this
      exact hpnot hq
    have hb1 : ∀ d q, needed d → reg.get? d = some q → q ∈ pre ++ [p] → ∃ v, env1.get? d = some v := by
      intro d q hn hg hq
      rcases List.mem_append.1 hq with hq | hq
      · rw [hkeep d (hpre d q hn hg hq)]
        exact hbound d q hn hg hq
      · rw [List.mem_singleton] at hq
        subst hq
        obtain ⟨i, hi⟩ := List.getElem?_of_mem (hwf d q hn hg)
        rw [hout i d hi]
        obtain ⟨hi1, _⟩ := List.getElem?_eq_some_iff.1 hi
        exact ⟨outs[i]'(by omega), List.getElem?_eq_getElem (by omega)⟩
    obtain ⟨key', env', hr, hin, hst, hall, hev⟩ := ih (pre ++ [p]) (by simp [hsplit]) k1 env1
      (by rw [hkeep nodep (hnodep p hp)]; exact henv) hb1
    refine ⟨key', env', ?_, hin, ?_, hall, ?_⟩
    · simp only [runWorks, List.map_cons, List.foldlM_cons, hrun1]
      exact hr
    · intro d q hn hg hq
      rw [hst d q hn hg (by simp [hq]), hkeep d (hpre d q hn hg hq)]
    · refine .cons (k' := k1) (outs := outs) ?_ ?_ hev
      · have : p.dependsOn.map (fun d => (env'.get? d).getD input)
            = p.dependsOn.map (fun e => (env.get? e).getD input) := by
          apply List.map_congr_left
          intro e he
          rcases hdeps e he with rfl | ⟨hn, q, hq, hg⟩
          · rw [hin, henv]
          · rw [hst e q hn hg (by simp [hq]), hkeep e (hpre e q hn hg hq)]
        rw [this]; exact hs
      · intro i d hi hn
        have hg := hprov p hp d (List.mem_of_getElem? hi) hn
        have h1 := hst d p hn hg (by simp)
        rw [hout i d hi] at h1
        obtain ⟨hi1, _⟩ := List.getElem?_eq_some_iff.1 hi
        rw [h1, List.getElem?_eq_getElem (by omega)]
        rfl

end
/-- Running lines only binds the names they provide. -/
theorem runWorks_keys {K V : Type} (inst : PyDict String Plugin) (sem : Plugin → K → List V → Res (K × List V)) (ws : List Work)
    (s s' : K × PyDict String V) (h : runWorks inst sem ws s = .ok s') (x : String) (hx : x ∈ s'.2.keys) :
    x ∈ s.2.keys ∨ ∃ w ∈ ws, x ∈ w.provides := by
  induction ws generalizing s with
  | nil =>
    simp only [runWorks, List.foldlM_nil, pure, Except.pure, Except.ok.injEq] at h
    subst h; exact Or.inl hx
  | cons w ws ih =>
    unfold runWorks at h
    rw [List.foldlM_cons] at h
    simp only [bind, Except.bind] at h
    split at h
    · cases h
    · rename_i s1 h1
      rcases ih s1 h with h2 | ⟨w', hw', h2⟩
      · unfold runWork at h1
        simp only [bind, Except.bind] at h1
        split at h1
        · cases h1
        · split at h1
          · cases h1
          · split at h1
            · cases h1
            · split at h1
              · simp only [Except.ok.injEq] at h1
                subst h1
                rcases (PyDict.mem_keys_update _ _ _).1 h2 with h3 | h3
                · exact Or.inl h3
                · obtain ⟨kv, hkv, rfl⟩ := List.mem_map.1 h3
                  exact Or.inr ⟨w, by simp, (List.of_mem_zip hkv).1⟩
              · cases h1
      · exact Or.inr ⟨w', by simp [hw'], h2⟩

/-- Reading a list of names of which one is not bound. -/
theorem readVars_unbound {V : Type} (env : PyDict String V) (l : List String) (x : String) (hx : x ∈ l) (hn : x ∉ env.keys) :
    l.mapM (readVar env) = .error .nameError := by
  induction l with
  | nil => cases hx
  | cons a l ih =>
    rw [List.mapM_cons]
    simp only [bind, Except.bind]
    cases ha : env.get? a with
    | none => simp [readVar, ha]
    | some v =>
      simp only [readVar, ha]
      rcases List.mem_cons.1 hx with rfl | hx
      · exact absurd ((PyDict.mem_keys_iff_exists _ _).2 ⟨v, ha⟩) hn
      · rw [ih hx]

end Verif.Comp
