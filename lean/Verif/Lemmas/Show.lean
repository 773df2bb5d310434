import Verif.Spec.Show
import Verif.Lemmas.Deps

namespace Verif.Show
open Verif Comp

theorem pluginRows_ok {conf : Cfg → Conf.Conf} {cache : Conf.Cache} {llh : String} {provides : List String} {l : List Cfg}
    {rs : List Row} (h : pluginRows conf cache llh provides l = .ok rs) :
    rs.map Row.option = l.map (fun c => (conf c).name) ∧
    ∀ r, r ∈ rs ↔ ∃ c ∈ l, ∃ cur, current cache llh (conf c).name = .ok cur ∧ r = ⟨(conf c).name, (conf c).default, cur, provides⟩ := by
  induction l generalizing rs with
  | nil => cases h; simp
  | cons c l ih =>
    simp only [pluginRows, bind, Except.bind, pure, Except.pure] at h
    split at h
    · cases h
    rename_i cur hcur
    split at h
    · cases h
    rename_i rest hrest
    cases h
    obtain ⟨h1, h2⟩ := ih hrest
    refine ⟨by simp [h1], fun r => ?_⟩
    rw [List.mem_cons, h2]
    constructor
    · rintro (rfl | ⟨c', hc, cur', h3, rfl⟩)
      · exact ⟨c, by simp, cur, hcur, rfl⟩
      · exact ⟨c', by simp [hc], cur', h3, rfl⟩
    · rintro ⟨c', hc, cur', h3, rfl⟩
      rcases List.mem_cons.1 hc with rfl | hc
      · rw [hcur] at h3; cases h3; exact .inl rfl
      · exact .inr ⟨c', hc, cur', h3, rfl⟩

theorem pluginRows_total {conf : Cfg → Conf.Conf} {cache : Conf.Cache} {llh : String} {provides : List String} {l : List Cfg} :
    (∃ rs, pluginRows conf cache llh provides l = .ok rs) ∨
      (pluginRows conf cache llh provides l = .error .keyError ∧ ∃ c ∈ l, current cache llh (conf c).name = .error .keyError) := by
  induction l with
  | nil => exact .inl ⟨_, rfl⟩
  | cons c l ih =>
    have hc : (∃ cur, current cache llh (conf c).name = .ok cur) ∨ current cache llh (conf c).name = .error .keyError := by
      unfold current
      split
      · exact .inl ⟨_, rfl⟩
      · exact .inl ⟨_, rfl⟩
      · rename_i d _
        simp only [PyDict.getItem, bind, Except.bind, pure, Except.pure]
        cases PyDict.get? d llh
        · exact .inr rfl
        · exact .inl ⟨_, rfl⟩
    rcases hc with ⟨cur, hcur⟩ | hcur
    · rcases ih with ⟨rs, hrs⟩ | ⟨he, c', hc', h'⟩
      · exact .inl ⟨⟨(conf c).name, (conf c).default, cur, provides⟩ :: rs, by simp only [pluginRows, hcur, hrs, bind, Except.bind, pure, Except.pure]⟩
      · exact .inr ⟨by simp only [pluginRows, hcur, he, bind, Except.bind], c', by simp [hc'], h'⟩
    · exact .inr ⟨by simp only [pluginRows, hcur, bind, Except.bind], c, by simp, hcur⟩

/-- The plugins of a list of dependencies that were not seen before, each once. -/
def fresh : List Entry → List Plugin → List Plugin
  | [], _ => []
  | e :: l, seen => if e.plugin ∈ seen then fresh l seen else e.plugin :: fresh l (seen ++ [e.plugin])

theorem fresh_spec (l : List Entry) (seen : List Plugin) :
    (fresh l seen).Nodup ∧ ∀ p, p ∈ fresh l seen ↔ p ∉ seen ∧ ∃ e ∈ l, e.plugin = p := by
  induction l generalizing seen with
  | nil => simp [fresh]
  | cons e l ih =>
    unfold fresh
    split
    · rename_i hs
      obtain ⟨h1, h2⟩ := ih seen
      refine ⟨h1, fun p => ?_⟩
      rw [h2]
      constructor
      · rintro ⟨a, e', he, rfl⟩; exact ⟨a, e', by simp [he], rfl⟩
      · rintro ⟨a, e', he, rfl⟩
        rcases List.mem_cons.1 he with rfl | he
        · exact absurd hs a
        · exact ⟨a, e', he, rfl⟩
    · rename_i hs
      obtain ⟨h1, h2⟩ := ih (seen ++ [e.plugin])
      refine ⟨List.nodup_cons.2 ⟨?_, h1⟩, fun p => ?_⟩
      · rw [h2]; simp
      · rw [List.mem_cons, h2]
        constructor
        · rintro (rfl | ⟨a, e', he, rfl⟩)
          · exact ⟨hs, e, by simp, rfl⟩
          · exact ⟨fun hh => a (by simp [hh]), e', by simp [he], rfl⟩
        · rintro ⟨a, e', he, rfl⟩
          by_cases hp : e'.plugin = e.plugin
          · exact .inl hp
          · rcases List.mem_cons.1 he with rfl | he
            · exact absurd rfl hp
            · exact .inr ⟨by simp [a, hp], e', he, rfl⟩

theorem showLoop_ok {conf : Cfg → Conf.Conf} {cache : Conf.Cache} {llh : String} {l : List Entry} {seen : List Plugin} {rs : List Row}
    (h : showLoop conf cache llh l seen = .ok rs) :
    rs.map Row.option = (fresh l seen).flatMap (fun p => p.configs.map (fun c => (conf c).name)) ∧
    ∀ r, r ∈ rs ↔ ∃ p ∈ fresh l seen, ∃ c ∈ p.configs, ∃ cur, current cache llh (conf c).name = .ok cur ∧
      r = ⟨(conf c).name, (conf c).default, cur, p.provides⟩ := by
  induction l generalizing seen rs with
  | nil => cases h; simp [fresh]
  | cons e l ih =>
    unfold showLoop at h
    unfold fresh
    split at h
    · rename_i hs
      rw [if_pos hs]
      exact ih h
    · rename_i hs
      rw [if_neg hs]
      simp only [bind, Except.bind, pure, Except.pure] at h
      split at h
      · cases h
      rename_i a ha
      split at h
      · cases h
      rename_i b hb
      cases h
      obtain ⟨h1, h2⟩ := ih hb
      obtain ⟨h3, h4⟩ := pluginRows_ok ha
      refine ⟨by simp [h1, h3], fun r => ?_⟩
      rw [List.mem_append, h2, h4]
      simp only [List.mem_cons, exists_eq_or_imp]

theorem showLoop_total {conf : Cfg → Conf.Conf} {cache : Conf.Cache} {llh : String} {l : List Entry} {seen : List Plugin} :
    (∃ rs, showLoop conf cache llh l seen = .ok rs) ∨
      (showLoop conf cache llh l seen = .error .keyError ∧ ∃ p ∈ fresh l seen, ∃ c ∈ p.configs, current cache llh (conf c).name = .error .keyError) := by
  induction l generalizing seen with
  | nil => exact .inl ⟨_, rfl⟩
  | cons e l ih =>
    unfold showLoop fresh
    split
    · exact ih
    · rcases pluginRows_total (conf := conf) (cache := cache) (llh := llh) (provides := e.plugin.provides) (l := e.plugin.configs) with
        ⟨a, ha⟩ | ⟨ha, c, hc, hcur⟩
      · rcases ih (seen := seen ++ [e.plugin]) with ⟨b, hb⟩ | ⟨hb, p, hp, c, hc, hcur⟩
        · exact .inl ⟨a ++ b, by simp only [ha, hb, bind, Except.bind, pure, Except.pure]⟩
        · exact .inr ⟨by simp only [ha, hb, bind, Except.bind], p, by simp [hp], c, hc, hcur⟩
      · exact .inr ⟨by simp only [ha, bind, Except.bind], e.plugin, by simp, c, hc, hcur⟩

theorem mem_fresh {reg : Registry} {fuel : Nat} {names : List String} {deps : List Entry}
    (h : deduceDeps reg "batch_size" fuel names [] = .ok deps) (p : Plugin) :
    p ∈ fresh deps [] ↔ ∃ d, Reach reg "batch_size" names d ∧ reg.get? d = some p := by
  rw [(fresh_spec deps []).2]
  constructor
  · rintro ⟨_, e, he, rfl⟩
    exact ⟨e.data, (deduce_mem_iff _ _ _ h e).1 he⟩
  · rintro ⟨d, h1, h2⟩
    exact ⟨by simp, ⟨p, d⟩, (deduce_mem_iff _ _ _ h ⟨p, d⟩).2 ⟨h1, h2⟩, rfl⟩

theorem current_iff (cache : Conf.Cache) (llh name : String) (cur : Option Conf.Atom) :
    current cache llh name = .ok cur ↔ IsCurrent cache llh name cur := by
  unfold current
  cases h : cache.data.get? name with
  | none => cases cur <;> simp [IsCurrent, h]
  | some v =>
    cases v with
    | atom a => cases cur <;> simp [IsCurrent, h]
    | dict d =>
      simp only [PyDict.getItem, bind, Except.bind, pure, Except.pure]
      cases hd : PyDict.get? d llh <;> cases cur <;> simp [IsCurrent, h, hd]

theorem current_error (cache : Conf.Cache) (llh name : String) :
    current cache llh name = .error .keyError ↔ ∃ d, cache.data.get? name = some (.dict d) ∧ d.get? llh = none := by
  unfold current
  cases h : cache.data.get? name with
  | none => simp
  | some v =>
    cases v with
    | atom a => simp
    | dict d =>
      simp only [PyDict.getItem, bind, Except.bind, pure, Except.pure]
      cases hd : PyDict.get? d llh <;> simp [hd]

/-- What `deduce` leaves on success. -/
theorem deduce_code {c c' : Comp} {g g' : FnCache} {a : DeduceArgs} (h : deduce c g a = ((c', g'), .ok ())) :
    ∃ deps ws nd, deduceDeps c.registry a.nodep a.fuel (outNames a.dataNames a.force) [] = .ok deps ∧
      needLoop a.required (worksheet deps) [] (if c.rateName = "" then [] else [c.rateName]) = ((ws, nd), .ok ()) ∧
      c'.code = some (genCode c.name c.llhName ws (outNames a.dataNames a.force) a.funcName a.nodep) ∧ c'.needed = nd ∧
      g.cache.has c.llhName = false ∧ g'.cache.has c.llhName = true := by
  simp only [deduce] at h
  split at h
  · cases h
  rename_i deps hd
  split at h
  · cases h
  rename_i ws nd hn
  split at h
  · cases h
  rename_i hg
  cases h
  refine ⟨deps, ws, nd, hd, hn, rfl, rfl, by simpa using hg, ?_⟩
  simp [PyDict.has, PyDict.get?_set]

theorem cfgLoop_acc (required : Cfg → Res (Option String)) (l : List Cfg) (pre nd : List String) :
    cfgLoop required l (pre ++ nd) = (pre ++ (cfgLoop required l nd).1, (cfgLoop required l nd).2) := by
  induction l generalizing nd with
  | nil => rfl
  | cons c l ih =>
    unfold cfgLoop
    cases required c with
    | error e => rfl
    | ok o =>
      cases o with
      | none => exact ih nd
      | some q => simpa [List.append_assoc] using ih (nd ++ [q])

theorem needLoop_acc (required : Cfg → Res (Option String)) (l ws : List Plugin) (pre nd : List String) :
    needLoop required l ws (pre ++ nd) =
      (((needLoop required l ws nd).1.1, pre ++ (needLoop required l ws nd).1.2), (needLoop required l ws nd).2) := by
  induction l generalizing ws nd with
  | nil => rfl
  | cons p l ih =>
    simp only [needLoop]
    rw [List.append_assoc, cfgLoop_acc]
    cases h : cfgLoop required p.configs (nd ++ p.parameters) with
    | mk a r =>
      cases r with
      | error e => rfl
      | ok u => exact ih _ _

end Verif.Show
