/-
Property theorems C96: the names a package binds and uses.
-/
import Verif.Lemmas.ShippedNames

namespace Verif.Names
open Verif

/-- **C96 (once).** However the modules of a package import each other, a successful import runs each module once, only modules of
the package, and importing any of them again changes nothing. -/
theorem C96_each_module_once (prog : Program) (builtin : List String) (top : String) (st : St) (h : Loaded prog builtin top st) :
    top ∈ st.ran ∧ st.ran.Nodup ∧ (∀ m ∈ st.ran, m ∈ prog.keys) ∧
    (∀ m ∈ st.ran, ∀ fuel, load prog builtin (fuel + 1) st m = .ok st) ∧
    ∀ fuel st', load prog builtin fuel {} top = .ok st' → st' = st := by
  obtain ⟨fuel, h⟩ := h
  obtain ⟨hw, _, ht⟩ := load_spec prog builtin fuel _ _ _ (empty_wf prog) h
  refine ⟨ht, hw.nodup, hw.known, ?_, ?_⟩
  · intro m hm k
    rw [load, if_pos ((PyDict.has_iff _ _).2 (by rw [hw.keys]; exact hm))]
  · intro k st' hk
    have h1 := load_mono prog builtin (Nat.le_max_left fuel k) h
    have h2 := load_mono prog builtin (Nat.le_max_right fuel k) hk
    rw [h1] at h2; cases h2; rfl

/-- **C96 (packages first).** A successful import runs the package of a module before the module. -/
theorem C96_package_first (prog : Program) (builtin : List String) (top : String) (st : St) (h : Loaded prog builtin top st)
    (pre post : List String) (m : String) (hr : st.ran = pre ++ m :: post) (md : Mod) (hmd : prog.get? m = some md)
    (p : String × String) (hp : md.parent = some p) : p.1 ∈ pre := by
  obtain ⟨fuel, h⟩ := h
  exact (load_spec prog builtin fuel _ _ _ (empty_wf prog) h).1.parents pre m post md p hr hmd hp

/-- **C96 (submodules).** A module imported after its package is bound in the package under its own short name. -/
theorem C96_submodule (prog : Program) (builtin : List String) (fuel : Nat) (st st' : St) (m : String) (md : Mod)
    (hmd : prog.get? m = some md) (p : String × String) (hp : md.parent = some p) (hin : p.1 ∈ st.mods.keys) (hm : m ∉ st.mods.keys)
    (h : load prog builtin (fuel + 1) st m = .ok st') : (st'.ns p.1).names.get? p.2 = some (.module m) := by
  have hm' : ¬ st.mods.has m = true := fun hc => hm ((PyDict.has_iff _ _).1 hc)
  rw [load, if_neg hm', hmd] at h
  cases fuel with
  | zero => simp [loadParent, hp, load, bind, Except.bind] at h
  | succ n =>
    have hl : loadParent (load prog builtin (n + 1)) md st = .ok st := by
      rw [loadParent, hp]
      simp only [load, if_pos ((PyDict.has_iff _ _).2 hin)]
    simp only [hl, bind, Except.bind, if_neg hm'] at h
    split at h
    · cases h
    · rw [hp] at h
      cases h
      rw [ns_bind, if_pos rfl]
      simp [PyDict.get?_set]

/-- **C96 (imports and definitions).** A definition and an import bind the one name they give, in their own module, to the object
defined, to the module, or to what the name is in the other module; if it is not bound there it must be a submodule, else
ImportError.  An error of the module that is imported is passed on. -/
theorem C96_imports (builtin : List String) (ld : St → String → Res St) (m : String) (st : St) :
    (∀ n ex st', exec builtin ld m st (.define n ex) = .ok st' → BindsOnly st st' m n (.defined m n)) ∧
    (∀ n st', exec builtin ld m st (.external n) = .ok st' → BindsOnly st st' m n (.external n)) ∧
    (∀ t a st1, ld st t = .ok st1 → ∃ st', exec builtin ld m st (.importAs t a) = .ok st' ∧ BindsOnly st1 st' m a (.module t)) ∧
    (∀ src n a sub st1 o, ld st src = .ok st1 → (st1.ns src).names.get? n = some o →
      ∃ st', exec builtin ld m st (.fromImport src n a sub) = .ok st' ∧ BindsOnly st1 st' m a o) ∧
    (∀ src n a s st1 st2, ld st src = .ok st1 → (st1.ns src).names.get? n = none → ld st1 s = .ok st2 →
      ∃ st', exec builtin ld m st (.fromImport src n a (some s)) = .ok st' ∧ BindsOnly st2 st' m a (.module s)) ∧
    (∀ src n a st1, ld st src = .ok st1 → (st1.ns src).names.get? n = none →
      exec builtin ld m st (.fromImport src n a none) = .error .importError) ∧
    (∀ t e, ld st t = .error e → (∀ a, exec builtin ld m st (.importAs t a) = .error e) ∧
      (∀ n a sub, exec builtin ld m st (.fromImport t n a sub) = .error e) ∧ exec builtin ld m st (.star t) = .error e) := by
  have hb : ∀ (s : St) n o, BindsOnly s (s.bind m n o) m n o := by
    intro s n o
    refine ⟨?_, fun k hk => ?_, fun x hx => ?_⟩
    · rw [ns_bind, if_pos rfl]; simp [PyDict.get?_set]
    · rw [ns_bind, if_pos rfl]; simp [PyDict.get?_set, Ne.symm hk]
    · rw [ns_bind, if_neg (Ne.symm hx)]
  refine ⟨?_, ?_, ?_, ?_, ?_, ?_, ?_⟩
  · intro n ex st' h
    cases ex
    · cases h; exact hb _ _ _
    · cases h
      obtain ⟨h1, h2, h3⟩ := hb (st.export m n) n (.defined m n)
      refine ⟨h1, fun k hk => ?_, fun x hx => ?_⟩
      · exact (h2 k hk).trans (by rw [ns_export, if_pos rfl])
      · exact (h3 x hx).trans (by rw [ns_export, if_neg (Ne.symm hx)])
  · intro n st' h
    cases h; exact hb _ _ _
  · intro t a st1 h
    exact ⟨_, by simp [exec, h, bind, Except.bind, pure, Except.pure], hb _ _ _⟩
  · intro src n a sub st1 o h ho
    exact ⟨_, by simp only [exec, h, ho, bind, Except.bind, pure, Except.pure], hb _ _ _⟩
  · intro src n a s st1 st2 h ho h2
    exact ⟨_, by simp only [exec, h, ho, h2, bind, Except.bind, pure, Except.pure], hb _ _ _⟩
  · intro src n a st1 h ho
    simp only [exec, h, ho, bind, Except.bind]
  · intro t e h
    exact ⟨fun a => by simp only [exec, h, bind, Except.bind], fun n a sub => by simp only [exec, h, bind, Except.bind],
      by simp only [exec, h, bind, Except.bind]⟩

/-- **C96 (origin).** Every name is bound to something that a statement of the package defines or imports from outside, or to one of
its modules. -/
theorem C96_origin (prog : Program) (builtin : List String) (top : String) (st : St) (h : Loaded prog builtin top st)
    (m n : String) (o : Obj) (ho : (st.ns m).names.get? n = some o) : FromProgram prog o := by
  obtain ⟨fuel, h⟩ := h
  exact (load_spec prog builtin fuel _ _ _ (empty_wf prog) h).1.origin m n o ho

/-- **C96 (`__all__`).** After the import the list of a module is the names decorated with `export` after the call of `exporter`,
in order, after its own name if that was asked for; a module that does not call `exporter` has none. -/
theorem C96_exported_list (prog : Program) (builtin : List String) (top : String) (st : St) (h : Loaded prog builtin top st)
    (m : String) (hm : m ∈ st.ran) (md : Mod) (hmd : prog.get? m = some md) :
    (∀ pre own post, md.body = pre ++ .exporter own :: post → (∀ o, Stmt.exporter o ∉ post) →
      (st.ns m).all = some ((if own then ["exporter"] else []) ++ decorated post)) ∧
    ((∀ o, Stmt.exporter o ∉ md.body) → (st.ns m).all = none) := by
  obtain ⟨fuel, h⟩ := h
  obtain ⟨md', hmd', ha⟩ := load_new prog builtin fuel _ _ _ (empty_wf prog) h m hm (by simp)
  rw [hmd] at hmd'
  cases hmd'
  constructor
  · intro pre own post hb hpost
    rw [ha, hb, List.foldl_append, List.foldl_cons]
    exact allStep_decorated post hpost _
  · intro hno
    rw [ha, allStep_none _ hno]

/-- **C96 (`import *`).** Taking over all names of a module binds each exported name to what it is there, and touches nothing else;
a listed name that is missing there is an AttributeError. -/
theorem C96_star (builtin : List String) (ld : St → String → Res St) (m src : String) (st st1 : St) (hl : ld st src = .ok st1) :
    (∀ st', exec builtin ld m st (.star src) = .ok st' →
      (∀ n ∈ (st1.ns src).exported, (st'.ns m).names.get? n = (st1.ns src).names.get? n ∧ n ∈ (st1.ns src).names.keys) ∧
      (∀ n, n ∉ (st1.ns src).exported → (st'.ns m).names.get? n = (st1.ns m).names.get? n) ∧ ∀ x, x ≠ m → st'.ns x = st1.ns x) ∧
    (∀ n ∈ (st1.ns src).exported, n ∉ (st1.ns src).names.keys → exec builtin ld m st (.star src) = .error .attributeError) := by
  constructor
  · intro st' h
    simp only [exec, hl, bind, Except.bind] at h
    exact bindAll_names _ _ _ h
  · intro n hn hs
    simp only [exec, hl, bind, Except.bind]
    exact bindAll_error _ _ n hn hs

/-- **C96 (the package).** `import appletree` succeeds and loads every module; every global name that any function of the package
looks up when called, with the attributes of modules it asks for, is found; every exported definition of the modules the package
takes over, every plugin class but one, and every class the shipped instructions name is found where it is looked for. -/
theorem C96_package : ∃ st, Loaded package builtinNames "appletree" st ∧ (∀ m ∈ package.keys, m ∈ st.ran) ∧
    (∀ e ∈ package, ∀ u ∈ e.2.later, lookup builtinNames st e.1 u.1 u.2 = .ok ()) ∧
    (∀ m md n ex, Stmt.star m ∈ appletree.body → package.get? m = some md → Stmt.define n ex ∈ md.body →
      n ∈ (st.ns m).exported → (st.ns "appletree").names.get? n = some (.defined m n)) ∧
    (∀ m n, (m, n) ∈ pluginClasses → (m, n) ≠ ("appletree.plugins.nestv2", "BandEnergiesClipEff") →
      (st.ns "appletree.plugins").names.get? n = some (.defined m n)) ∧
    (∀ n ∈ instructComponents, ∃ m ∈ componentModules, (st.ns "appletree.components").names.get? n = some (.defined m n) ∧
      (st.ns "appletree").names.get? n = some (.defined m n)) ∧
    ∀ n ∈ instructTypes, (st.ns "appletree").names.get? n = some (.defined "appletree.likelihood" n) := by
  have h := shippedOK_true
  unfold shippedOK at h
  cases hl : load package builtinNames 5 {} "appletree" with
  | error e => rw [hl] at h; cases h
  | ok st =>
    rw [hl] at h
    simp only [Bool.and_eq_true] at h
    obtain ⟨⟨⟨h1, h2⟩, h3⟩, h4⟩ := h
    unfold laterOK at h1
    unfold exportsOK at h2
    unfold pluginsOK at h3
    unfold instructOK at h4
    simp only [List.all_eq_true, List.any_eq_true, Bool.and_eq_true, Bool.or_eq_true, decide_eq_true_eq] at h1 h2 h3 h4
    refine ⟨st, ⟨5, hl⟩, ?_, ?_, ?_, ?_, ?_, h4.2⟩
    · intro m hm
      obtain ⟨e, he, rfl⟩ := List.mem_map.1 hm
      exact (h1 e he).1
    · intro e he u hu
      exact (h1 e he).2 u hu
    · intro m md n ex hs hmd hd hn
      have hm : m ∈ starred := List.mem_filterMap.2 ⟨_, hs, rfl⟩
      have h5 := h2 m hm (.define n ex) (by rw [hmd]; exact hd)
      simp only [isDefine, Bool.or_eq_true, decide_eq_true_eq] at h5
      exact h5.resolve_left (fun hc => hc hn)
    · intro m n hc hne
      exact (h3 (m, n) hc).resolve_left hne
    · intro n hn
      exact h4.1 n hn

/-- **C96 (the exception).** Two plugin modules define `BandEnergiesClipEff`; the one of `nestv2` is overwritten. -/
theorem C96_overwritten_plugin : ∃ st, Loaded package builtinNames "appletree" st ∧
    ("appletree.plugins.nestv2", "BandEnergiesClipEff") ∈ pluginClasses ∧
    (st.ns "appletree.plugins").names.get? "BandEnergiesClipEff" =
      some (.defined "appletree.plugins.er_nestv2" "BandEnergiesClipEff") := by
  obtain ⟨st, hl, _, _, _, hp, _⟩ := C96_package
  exact ⟨st, hl, by decide +kernel, hp _ _ (by decide +kernel) (by decide +kernel)⟩

/-- Non-vacuity: two modules that import each other; the second sees only what the first had defined before. -/
def circular (early : Bool) : Program :=
  [("p", ⟨none, (if early then [.define "x" false] else []) ++ [.star "p.q"] ++ (if early then [] else [.define "x" false]), []⟩),
   ("p.q", ⟨some ("p", "q"), [.exporter false, .use "export" [], .define "f" true, .define "g" false, .fromImport "p" "x" "y" none], []⟩)]

example : (∃ st, load (circular true) [] 9 {} "p" = .ok st ∧ (st.ns "p").names.get? "f" = some (.defined "p.q" "f") ∧
      (st.ns "p").names.get? "g" = none ∧ (st.ns "p.q").names.get? "y" = some (.defined "p" "x") ∧
      (st.ns "p").names.get? "q" = some (.module "p.q") ∧ st.ran = ["p", "p.q"]) ∧
    load (circular false) [] 9 {} "p" = .error .importError := by
  refine ⟨⟨_, rfl, ?_, ?_, ?_, ?_, ?_⟩, rfl⟩ <;> decide +kernel

/-- A name of a module, with attributes of it, can be evaluated: it is bound there and each attribute of a module is bound in that
module, or it is not bound there and is a name of python. -/
inductive Resolves (builtin : List String) (st : St) : String → String → List String → Prop
  | builtin {m n attrs} : (st.ns m).names.get? n = none → n ∈ builtin → Resolves builtin st m n attrs
  | plain {m n o} : (st.ns m).names.get? n = some o → Resolves builtin st m n []
  | value {m n o attrs} : (st.ns m).names.get? n = some o → (∀ t, o ≠ .module t) → Resolves builtin st m n attrs
  | attr {m n t a o rest} : (st.ns m).names.get? n = some (.module t) → (st.ns t).names.get? a = some o →
      Resolves builtin st t a rest → Resolves builtin st m n (a :: rest)

/-- **C96 (lookup).** Using a name changes nothing.  It succeeds exactly if the name is bound or is a name of python, and every
attribute asked of a module is bound there; an unbound name is a NameError, a missing attribute an AttributeError. -/
theorem C96_use (builtin : List String) (ld : St → String → Res St) (m n : String) (attrs : List String) (st : St) :
    (∀ st', exec builtin ld m st (.use n attrs) = .ok st' ↔ st' = st ∧ Resolves builtin st m n attrs) ∧
    (exec builtin ld m st (.use n attrs) = .error .nameError ↔ n ∉ (st.ns m).names.keys ∧ n ∉ builtin) ∧
    (∀ e, exec builtin ld m st (.use n attrs) = .error e → e = .nameError ∨ e = .attributeError) := by
  have hw : ∀ (attrs : List String) (m n : String) (o : Obj), (st.ns m).names.get? n = some o →
      (walk st o attrs = .ok () ↔ Resolves builtin st m n attrs) ∧ (walk st o attrs = .ok () ∨ walk st o attrs = .error .attributeError) := by
    intro attrs
    induction attrs with
    | nil =>
      intro m n o ho
      have : walk st o [] = .ok () := by cases o <;> rfl
      exact ⟨⟨fun _ => .plain ho, fun _ => this⟩, .inl this⟩
    | cons a rest ih =>
      intro m n o ho
      by_cases hm : ∃ t, o = .module t
      · obtain ⟨t, rfl⟩ := hm
        rw [walk]
        cases ha : (st.ns t).names.get? a with
        | none =>
          refine ⟨⟨fun h => by simp at h, fun h => ?_⟩, .inr rfl⟩
          cases h with
          | builtin h1 _ => rw [ho] at h1; cases h1
          | value h1 h2 => rw [ho] at h1; cases h1; exact absurd rfl (h2 t)
          | attr h1 h2 _ => rw [ho] at h1; cases h1; rw [ha] at h2; cases h2
        | some o' =>
          refine ⟨⟨fun h => .attr ho ha ((ih t a o' ha).1.1 h), fun h => ?_⟩, (ih t a o' ha).2⟩
          cases h with
          | builtin h1 _ => rw [ho] at h1; cases h1
          | value h1 h2 => rw [ho] at h1; cases h1; exact absurd rfl (h2 t)
          | attr h1 h2 h3 => rw [ho] at h1; cases h1; exact (ih t a o' ha).1.2 h3
      · have : walk st o (a :: rest) = .ok () := by
          cases o with
          | module t => exact absurd ⟨t, rfl⟩ hm
          | _ => rfl
        exact ⟨⟨fun _ => .value ho (fun t e => hm ⟨t, e⟩), fun _ => this⟩, .inl this⟩
  cases hg : (st.ns m).names.get? n with
  | some o =>
    have hk : n ∈ (st.ns m).names.keys := (PyDict.mem_keys_iff_exists _ _).2 ⟨o, hg⟩
    obtain ⟨h1, h2⟩ := hw attrs m n o hg
    simp only [exec, lookup, hg, bind, Except.bind, pure, Except.pure]
    rcases h2 with h2 | h2
    · simp only [h2, Except.ok.injEq, reduceCtorEq, false_iff, not_and, false_imp_iff, implies_true, and_true]
      exact ⟨fun st' => ⟨fun e => ⟨e.symm, h1.1 h2⟩, fun e => e.1.symm⟩, fun e => absurd hk e⟩
    · rw [h2]
      refine ⟨fun st' => ⟨fun e => (by cases e), fun e => ?_⟩, ⟨fun e => (by cases e), fun e => absurd hk e.1⟩, fun e he => by cases he; exact .inr rfl⟩
      rw [h1.2 e.2] at h2; cases h2
  | none =>
    have hk : n ∉ (st.ns m).names.keys := (PyDict.get?_eq_none_iff _ _).1 hg
    simp only [exec, lookup, hg, bind, Except.bind, pure, Except.pure]
    by_cases hb : n ∈ builtin
    · rw [if_pos hb]
      exact ⟨fun st' => ⟨fun e => ⟨(Except.ok.inj e).symm, .builtin hg hb⟩, fun e => (by rw [e.1])⟩, ⟨fun e => (by cases e), fun e => absurd hb e.2⟩, fun e he => by cases he⟩
    · rw [if_neg hb]
      refine ⟨fun st' => ⟨fun e => (by cases e), fun e => ?_⟩, ⟨fun _ => ⟨hk, hb⟩, fun _ => rfl⟩, fun e he => by cases he; exact .inl rfl⟩
      cases e.2 with
      | builtin _ h => exact absurd h hb
      | plain h => rw [hg] at h; cases h
      | value h _ => rw [hg] at h; cases h
      | attr h _ _ => rw [hg] at h; cases h

/-- Non-vacuity of C96_use: a module asking for a name it does not have, and one asking another module for something missing. -/
example : load [("p", ⟨none, [.use "x" []], []⟩)] ["print"] 3 {} "p" = .error .nameError ∧
    load [("p", ⟨none, [.importAs "q" "q", .use "q" ["x"]], []⟩), ("q", ⟨none, [.define "y" false], []⟩)] [] 3 {} "p" = .error .attributeError ∧
    (load [("p", ⟨none, [.importAs "q" "q", .use "q" ["y"], .use "print" []], []⟩), ("q", ⟨none, [.define "y" false], []⟩)] ["print"] 3 {} "p").isOk := by
  exact ⟨by rfl, by rfl, by rfl⟩

end Verif.Names
