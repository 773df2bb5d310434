/-
C100: error messages name what is wrong.
-/
import Verif.Lemmas.Messages
import Verif.Lemmas.MessageText

namespace Verif.Messages
open Verif Verif.Comp

/-- **C100.** The functions with messages raise exactly where those without do, with the same class of exception and the same
registry left behind. -/
theorem C100_same_outcome (reg : Registry) (p : Plugin) (nodep : String) (fuel : Nat) (names : List String) (c : Declare.Cls) :
    ((registerMsg reg p).1, forget (registerMsg reg p).2) = register reg p ∧
    forget (deduceMsg reg nodep fuel names []) = deduceDeps reg nodep fuel names [] ∧
    forget (pluginCheckMsg c) = Declare.sanityCheck c :=
  ⟨register_forget reg p, deduce_forget reg nodep fuel names [], plugin_forget c⟩

/-- **C100 (text).** The text of a message contains the names it is about, all of them and in their order. -/
theorem C100_text (m : Msg) : InOrder m.values m.render.toList := by
  cases m with
  | conflict c p f q g => exact inOrder_five _ _ _ _ _ _ c p (pyDefault f) q (pyDefault g)
  | noDependency d => exact inOrder_last _ d
  | notFound l => exact inOrder_pyList' _ l
  | notFoundOne n => exact inOrder_first n _
  | notNeeded l => exact inOrder_pyList _ _ l
  | firstArgument c => exact inOrder_one _ c _
  | secondArgument c => exact inOrder_one _ c _
  | otherArgument i c d => exact inOrder_four (toString i) _ c _ d _ c _
  | plain e => exact .nil _

example : (Msg.notFound ["g1", "g2"]).render = "['g1', 'g2'] not found!" := by decide +kernel

/-- **C100 (registering, what holds).** The message about two defaults names the new plugin and a registered plugin that take
the configuration it names, and the two different defaults. -/
theorem C100_conflict_partial (reg : Registry) (p : Plugin) (m : Msg) (h : (registerMsg reg p).2 = .error m) :
    ∃ q ∈ (addProvides reg p).map Prod.snd, ∃ c ∈ q.configs, ∃ c' ∈ p.configs, c.name = c'.name ∧ c.default ≠ c'.default ∧
      m = .conflict c.name q.name c'.default p.name c.default := by
  unfold registerMsg at h
  simp only [] at h
  split at h
  · rename_i m' hm
    injection h with h; subst h
    obtain ⟨q, hq, hm⟩ := List.exists_of_findSome?_eq_some hm
    obtain ⟨c, hc, c', hc', h1, h2, h3⟩ := clash_some hm
    exact ⟨q, hq, c, hc, c', hc', h1.symm, h2, h3⟩
  · cases h

/-- **C100 (violated).** Whenever the message appears, the file name it gives for the first plugin is not the default of that
plugin, and the one for the second is not the default of the second: they are exchanged.  (`takes_config` is a dictionary, so a
plugin has one configuration of a name.) -/
theorem C100_conflict_files_exchanged (reg : Registry) (p : Plugin) (m : Msg) (h : (registerMsg reg p).2 = .error m)
    (hn : ∀ q ∈ (addProvides reg p).map Prod.snd, (q.configs.map Cfg.name).Nodup) (hp : (p.configs.map Cfg.name).Nodup) :
    ∃ q ∈ (addProvides reg p).map Prod.snd, ∃ cfg f g, m = .conflict cfg q.name f p.name g ∧
      (∀ c ∈ q.configs, c.name = cfg → c.default = g ∧ c.default ≠ f) ∧
      (∀ c ∈ p.configs, c.name = cfg → c.default = f ∧ c.default ≠ g) := by
  obtain ⟨q, hq, c, hc, c', hc', h1, h2, h3⟩ := C100_conflict_partial reg p m h
  refine ⟨q, hq, _, _, _, h3, fun x hx hxn => ?_, fun x hx hxn => ?_⟩
  · have : x = c := List.inj_on_of_nodup_map (hn q hq) hx hc hxn
    subst this; exact ⟨rfl, h2⟩
  · have : x = c' := List.inj_on_of_nodup_map hp hx hc' (hxn.trans h1)
    subst this; exact ⟨rfl, fun hh => h2 hh.symm⟩

/-- Two plugins that take the same map from different files. -/
def lightYieldA : Plugin := ⟨"LightYield", ["ly"], ["energy"], [], [⟨"ly_map", some "a.json"⟩]⟩
/-- The second of them. -/
def lightYieldB : Plugin := ⟨"ChargeYield", ["qy"], ["energy"], [], [⟨"ly_map", some "b.json"⟩]⟩

example : (registerMsg (register [] lightYieldA).1 lightYieldB).2 =
    .error (.conflict "ly_map" "LightYield" (some "b.json") "ChargeYield" (some "a.json")) := by decide
example : (Msg.conflict "ly_map" "LightYield" (some "b.json") "ChargeYield" (some "a.json")).render =
    "Two plugins have a different file name for the same config. The config 'ly_map' in 'LightYield' takes the file name as \
'b.json'  while in 'ChargeYield' the file name is set to 'a.json'. Please change one of the file names." := by decide +kernel

/-- **C100 (dependencies).** If resolution fails then the error is that of the recursion limit, or it names data that the
requested data need and no registered plugin provides. -/
theorem C100_missing_dependency (reg : Registry) (nodep : String) (fuel : Nat) (names : List String) (m : Msg)
    (h : deduceMsg reg nodep fuel names [] = .error m) :
    m = .plain .recursionError ∨ ∃ d, m = .noDependency d ∧ Reach reg nodep names d ∧ reg.get? d = none :=
  deduce_error h

/-- **C100 (dependencies).** If requested data are not provided then the message names the first such. -/
theorem C100_first_missing_request (reg : Registry) (nodep : String) (fuel : Nat) (pre post : List String) (d : String)
    (hd : d ≠ nodep) (hm : reg.get? d = none) (hpre : ∀ n ∈ pre, n = nodep ∨ (reg.get? n).isSome) :
    deduceMsg reg nodep (fuel + 1) (pre ++ d :: post) [] = .error (.noDependency d) := by
  rw [deduceMsg]
  suffices h : ∀ acc, appendMsg reg nodep (pre ++ d :: post) acc = .error (.noDependency d) by rw [h]
  induction pre with
  | nil => intro acc; simp [appendMsg, hd, hm]
  | cons n pre ih =>
    intro acc
    rw [List.cons_append, appendMsg]
    split
    · exact ih (fun x hx => hpre x (by simp [hx])) acc
    · rename_i hn
      cases hg : reg.get? n with
      | none => rcases hpre n (by simp) with h | h
                · exact absurd h hn
                · simp [hg] at h
      | some p => exact ih (fun x hx => hpre x (by simp [hx])) _

example : deduceMsg (register [] lightYieldA).1 "batch_size" 5 ["ly"] [] = .error (.noDependency "energy") := by
  simp [deduceMsg, deduceLoopMsg, appendMsg, register, addProvides, lightYieldA, conflicts, PyDict.set, PyDict.get?]

/-- The names an argument of `set_parameter` or `get_parameter` mentions. -/
def mentioned : Parameter.Keys → List String
  | .str k => [k]
  | .list ks => ks
  | .set ks => ks
  | .dict d => d.keys
  | .other => []

/-- The names a message about unknown parameters mentions. -/
def blamed : Msg → List String
  | .notFound l => l
  | .notFoundOne n => [n]
  | _ => []

/-- **C100 (parameters).** If `set_parameter` or `get_parameter` is given names that do not exist then both fail, nothing
changes, and the message has exactly the names that do not exist, in the given order. -/
theorem C100_missing_parameters (pm : Parameter.PM) (keys : Parameter.Keys) (vals : Parameter.Vals)
    (h : ∃ k ∈ mentioned keys, k ∉ pm.vals.keys) :
    ∃ m, assertExist pm keys = .error m ∧ blamed m = (mentioned keys).filter (fun k => k ∉ pm.vals.keys) ∧
      Parameter.setParameter pm keys vals = (pm, .error m.err) ∧ Parameter.getParameter pm keys = .error m.err := by
  obtain ⟨k, hk, hkn⟩ := h
  have hf : ∀ l : List String, l.filter (fun k => !pm.vals.has k) = l.filter (fun k => k ∉ pm.vals.keys) := by
    intro l
    refine List.filter_congr fun x _ => ?_
    by_cases hx : pm.vals.has x = true
    · simp [hx, (PyDict.has_iff _ _).1 hx]
    · have : x ∉ pm.vals.keys := fun hh => hx ((PyDict.has_iff _ _).2 hh)
      simp [Bool.eq_false_iff.2 hx, this]
  have hhk : pm.vals.has k = false := Bool.eq_false_iff.2 fun hh => hkn ((PyDict.has_iff _ _).1 hh)
  have hne : ∀ l : List String, k ∈ l → (l.filter (fun k => !pm.vals.has k) == []) = false := by
    intro l hl
    rw [beq_eq_false_iff_ne]
    exact List.ne_nil_of_mem (List.mem_filter.2 ⟨hl, by simp [hhk]⟩)
  have hall : ∀ l : List String, k ∈ l → l.all pm.vals.has = false := by
    intro l hl
    rw [List.all_eq_false]
    exact ⟨k, hl, by simp [hhk]⟩
  cases keys with
  | str n =>
    simp only [mentioned, List.mem_singleton] at hk
    subst hk
    refine ⟨.notFoundOne k, by simp [assertExist, checkMissing, hhk], by simp [blamed, mentioned, hkn], ?_, ?_⟩ <;>
      simp [Parameter.setParameter, Parameter.getParameter, Parameter.checkExist, hhk, Msg.err]
  | list ks =>
    refine ⟨.notFound (ks.filter (fun k => !pm.vals.has k)), by simp only [assertExist, checkMissing, hne ks hk], hf ks, ?_, ?_⟩ <;>
      simp only [Parameter.setParameter, Parameter.getParameter, Parameter.checkExist, hall ks hk, Msg.err]
  | set ks =>
    refine ⟨.notFound (ks.filter (fun k => !pm.vals.has k)), by simp only [assertExist, checkMissing, hne ks hk], hf ks, ?_, ?_⟩ <;>
      simp only [Parameter.setParameter, Parameter.getParameter, Parameter.checkExist, hall ks hk, Msg.err]
  | dict d =>
    refine ⟨.notFound (d.keys.filter (fun k => !pm.vals.has k)), by simp only [assertExist, checkMissing, hne d.keys hk],
      hf d.keys, ?_, ?_⟩ <;>
      simp only [Parameter.setParameter, Parameter.getParameter, Parameter.checkExist, hall d.keys hk, Msg.err]
  | other => simp [mentioned] at hk

/-- **C100 (parameters).** The flag of `check_parameter_exist` is whether all names exist, and for lists, sets and dictionaries
the list beside it has exactly the names that do not exist. -/
theorem C100_not_existing_partial (pm : Parameter.PM) (keys : Parameter.Keys) (b : Bool) (l : List String)
    (h : checkMissing pm keys = .ok (b, .names l)) :
    (b = true ↔ ∀ k ∈ mentioned keys, k ∈ pm.vals.keys) ∧ (∀ k, k ∈ l ↔ k ∈ mentioned keys ∧ k ∉ pm.vals.keys) := by
  have key : ∀ ks : List String, b = (ks.filter (fun k => !pm.vals.has k) == []) → l = ks.filter (fun k => !pm.vals.has k) →
      (b = true ↔ ∀ k ∈ ks, k ∈ pm.vals.keys) ∧ (∀ k, k ∈ l ↔ k ∈ ks ∧ k ∉ pm.vals.keys) := by
    rintro ks rfl rfl
    constructor
    · simp only [beq_iff_eq, List.filter_eq_nil_iff, Bool.not_eq_true', Bool.not_eq_false, PyDict.has_iff]
    · intro k
      rw [List.mem_filter, ← PyDict.has_iff]
      simp
  cases keys with
  | str n => simp [checkMissing] at h
  | list ks => simp only [checkMissing, Except.ok.injEq, Prod.mk.injEq, Missing.names.injEq] at h
               exact key ks h.1.symm h.2.symm
  | set ks => simp only [checkMissing, Except.ok.injEq, Prod.mk.injEq, Missing.names.injEq] at h
              exact key ks h.1.symm h.2.symm
  | dict d => simp only [checkMissing, Except.ok.injEq, Prod.mk.injEq, Missing.names.injEq] at h
              exact key d.keys h.1.symm h.2.symm
  | other => simp [checkMissing] at h

/-- **C100 (violated).** Asked about a single name that exists, `check_parameter_exist` gives that name back where the names
that do not exist should be. -/
theorem C100_existing_name_given_back (pm : Parameter.PM) (k : String) (h : k ∈ pm.vals.keys) :
    checkMissing pm (.str k) = .ok (true, .name k) := by
  simp [checkMissing, (PyDict.has_iff _ _).2 h]

/-- Two parameters. -/
noncomputable def twoParameters : Parameter.PM := ⟨[], [], [], [("g1", .fin 1), ("g2", .fin 2)]⟩

example : assertExist twoParameters (.list ["g1", "g3", "g2", "w"]) = .error (.notFound ["g3", "w"]) := by
  simp [assertExist, checkMissing, twoParameters, PyDict.has, PyDict.get?]
example : (Msg.notFound ["g3", "w"]).render = "['g3', 'w'] not found!" := by decide

/-- **C100 (context).** If the check of the context fails then the message has exactly the parameters that are provided and not
needed, sorted and each once. -/
theorem C100_not_needed {K : Type} (ctx : Ctx.Ctx K) :
    (sanityMsg ctx.pm.vals.keys ctx.needed = .ok () ∧ Ctx.sanityCheck ctx = .ok ()) ∨
    ∃ l, sanityMsg ctx.pm.vals.keys ctx.needed = .error (.notNeeded l) ∧ Ctx.sanityCheck ctx = .error (Msg.notNeeded l).err ∧
      (Msg.notNeeded l).err = .runtimeError ∧ l ≠ [] ∧
      l.Nodup ∧ l.Pairwise (· ≤ ·) ∧ ∀ p, p ∈ l ↔ p ∈ ctx.pm.vals.keys ∧ p ∉ ctx.needed := by
  have hmem : ∀ p, p ∈ (ctx.pm.vals.keys.dedup.filter (fun p => p ∉ ctx.needed)) ↔
      p ∈ ctx.pm.vals.keys ∧ p ∉ ctx.needed := by intro p; simp
  by_cases h : ctx.pm.vals.keys.dedup.filter (fun p => p ∉ ctx.needed) = []
  · left
    refine ⟨by simp only [sanityMsg, h, if_true], ?_⟩
    unfold Ctx.sanityCheck
    rw [if_pos]
    intro p hp
    by_contra hn
    have := (hmem p).2 ⟨hp, hn⟩
    rw [h] at this; simp at this
  · right
    refine ⟨(ctx.pm.vals.keys.dedup.filter (fun p => p ∉ ctx.needed)).mergeSort (fun a b => decide (a ≤ b)),
      by simp only [sanityMsg, if_neg h], ?_, rfl, ?_, ?_, ?_, ?_⟩
    · unfold Ctx.sanityCheck
      rw [if_neg]
      · rfl
      intro hall
      obtain ⟨p, hp⟩ := List.exists_mem_of_ne_nil _ h
      exact ((hmem p).1 hp).2 (hall p ((hmem p).1 hp).1)
    · intro hh
      apply h
      have := congrArg List.length hh
      simpa using this
    · exact (List.mergeSort_perm _ _).nodup_iff.2 ((List.nodup_dedup _).filter _)
    · have := List.pairwise_mergeSort (le := fun a b : String => decide (a ≤ b))
        (by intro a b c hab hbc; simp only [decide_eq_true_eq] at *; exact le_trans hab hbc)
        (by intro a b; simp only [Bool.or_eq_true, decide_eq_true_eq]; exact le_total a b)
        (ctx.pm.vals.keys.dedup.filter (fun p => p ∉ ctx.needed))
      exact this.imp (by simp)
    · intro p
      rw [List.mem_mergeSort]; exact hmem p

example : sanityMsg ["w", "g1", "py0", "a"] ["g1", "py0"] = .error (.notNeeded ["a", "w"]) := by
  simp [sanityMsg, List.mergeSort, List.MergeSort.Internal.splitInTwo, List.merge]

/-- **C100 (plugins).** If the check of the arguments of `simulate` complains about an argument then all arguments before it are
right and this one is not the data it should be; arguments are counted without `self`, so the key is the first. -/
theorem C100_argument (c : Declare.Cls) (m : Msg) (h : pluginCheckMsg c = .error m) :
    (m = .firstArgument c.name ∧ ∃ a, c.args[1]? = some a ∧ a ≠ "key") ∨
    (m = .secondArgument c.name ∧ c.args[1]? = some "key" ∧ ∃ a, c.args[2]? = some a ∧ a ≠ "parameters") ∨
    (∃ pre d post a, c.dependsOn = pre ++ d :: post ∧ m = .otherArgument (3 + pre.length) c.name d ∧
      c.args[1]? = some "key" ∧ c.args[2]? = some "parameters" ∧
      (∀ k, (h : k < pre.length) → c.args[3 + k]? = some pre[k]) ∧ c.args[3 + pre.length]? = some a ∧ a ≠ d) ∨
    (m = .plain .indexError ∧ c.args.length < 3 + c.dependsOn.length) := by
  simp only [pluginCheckMsg, Declare.argument] at h
  cases h1 : c.args[1]? with
  | none =>
    rw [h1] at h
    have := List.getElem?_eq_none_iff.1 h1
    exact Or.inr (Or.inr (Or.inr ⟨by simpa using h.symm, by omega⟩))
  | some a =>
    rw [h1] at h
    simp only [] at h
    split at h
    · rename_i hne; exact Or.inl ⟨by simpa using h.symm, a, rfl, hne⟩
    · rename_i hk
      push Not at hk
      subst hk
      cases h2 : c.args[2]? with
      | none =>
        rw [h2] at h
        have := List.getElem?_eq_none_iff.1 h2
        exact Or.inr (Or.inr (Or.inr ⟨by simpa using h.symm, by omega⟩))
      | some b =>
        rw [h2] at h
        simp only [] at h
        split at h
        · rename_i hne; exact Or.inr (Or.inl ⟨by simpa using h.symm, rfl, b, rfl, hne⟩)
        · rename_i hp
          push Not at hp
          subst hp
          obtain ⟨pre, d, post, e1, e2, e3 | ⟨e3, e4⟩⟩ := inputs_error h
          · obtain ⟨e3, a, e4, e5⟩ := e3
            exact Or.inr (Or.inr (Or.inl ⟨pre, d, post, a, e1, e3, rfl, rfl, e2, e4, e5⟩))
          · have := List.getElem?_eq_none_iff.1 e4
            refine Or.inr (Or.inr (Or.inr ⟨e3, ?_⟩))
            rw [e1]; simp; omega

/-- A plugin whose `simulate` takes its data in another order. -/
def wrongOrder : Declare.Cls :=
  ⟨"S1", ["x", "y"], ["s1"], [], ["self", "key", "parameters", "y", "x"], 0, []⟩

example : pluginCheckMsg wrongOrder = .error (.otherArgument 3 "S1" "x") := by decide

end Verif.Messages
