/-
C84: the table of options of a component.  C85: copies of components.
-/
import Verif.Spec.Show
import Verif.Lemmas.Show
import Verif.Props.Component
import Verif.Model.Shipped
import Verif.Model.Likelihood

namespace Verif.Show
open Verif Comp

/-- C84: the rows are the options of the plugins that the requested data need, each plugin once, with the default, the value set for
this likelihood, and what the plugin provides. -/
theorem C84_rows (conf : Cfg → Conf.Conf) (cache : Conf.Cache) (c : Comp) (fuel : Nat) (names : List String) (rs : List Row)
    (h : showConfig conf cache c fuel names = .ok rs) :
    (∃ ps : List Plugin, ps.Nodup ∧ (∀ p, p ∈ ps ↔ ∃ d, Reach c.registry "batch_size" names d ∧ c.registry.get? d = some p) ∧
      rs.map Row.option = ps.flatMap (fun p => p.configs.map (fun o => (conf o).name))) ∧
    ∀ r, r ∈ rs ↔ ∃ d p o, Reach c.registry "batch_size" names d ∧ c.registry.get? d = some p ∧ o ∈ p.configs ∧
      r.option = (conf o).name ∧ r.default = (conf o).default ∧ r.appliesTo = p.provides ∧
      IsCurrent cache c.llhName (conf o).name r.current := by
  simp only [showConfig, bind, Except.bind] at h
  split at h
  · cases h
  rename_i deps hd
  obtain ⟨h1, h2⟩ := showLoop_ok h
  refine ⟨⟨fresh deps [], (fresh_spec deps []).1, mem_fresh hd, h1⟩, fun r => ?_⟩
  rw [h2]
  constructor
  · rintro ⟨p, hp, o, ho, cur, hc, rfl⟩
    obtain ⟨d, h3, h4⟩ := (mem_fresh hd p).1 hp
    exact ⟨d, p, o, h3, h4, ho, rfl, rfl, rfl, (current_iff ..).1 hc⟩
  · rintro ⟨d, p, o, h3, h4, ho, h5, h6, h7, h8⟩
    refine ⟨p, (mem_fresh hd p).2 ⟨d, h3, h4⟩, o, ho, r.current, (current_iff ..).2 h8, ?_⟩
    cases r; simp_all

/-- C84: a present value in the table is what a plugin of this likelihood gets when it is built, and a missing one means that the
default is used. -/
theorem C84_current_used (fs : Conf.FS) (useFile : Bool) (cf : Conf.Conf) (llh : String) (cache : Conf.Cache) :
    (∀ a, IsCurrent cache llh cf.name (some a) →
      (Conf.resolve fs useFile cf (some llh) cache).2 = .ok a ∧ (Conf.getConfigs cf (some llh) none cache).2 = .ok a) ∧
    (IsCurrent cache llh cf.name none →
      (∀ a, cf.default = some a →
        (Conf.resolve fs useFile cf (some llh) cache).2 = (Conf.transformed fs useFile a cache).2 ∧
        (Conf.getConfigs cf (some llh) none cache).2 = .ok a) ∧
      (cf.default = none → (Conf.resolve fs useFile cf (some llh) cache).2 = .error .valueError)) := by
  constructor
  · rintro a (h | ⟨d, h, h'⟩)
    · simp [Conf.resolve, Conf.getConfigs, PyDict.has, h, Conf.Cache.get, PyDict.getItem, Conf.pick]
    · simp [Conf.resolve, Conf.getConfigs, PyDict.has, h, h', Conf.Cache.get, PyDict.getItem, Conf.pick]
  · intro h
    have h0 : cache.data.get? cf.name = none := h
    refine ⟨fun a ha => ⟨?_, ?_⟩, fun hn => ?_⟩
    · simp only [Conf.resolve, PyDict.has, h0, ha, Conf.getDefault, Option.isSome_none, Bool.false_eq_true, if_false]
      cases ht : Conf.transformed fs useFile a cache with
      | mk c r => cases r <;> rfl
    · simp [Conf.getConfigs, PyDict.has, h0, ha, Conf.getDefault, Conf.pick]
    · simp [Conf.resolve, PyDict.has, h0, hn, Conf.getDefault]

/-- C84: once an option has been read for a likelihood, the table of this likelihood shows the value that was read. -/
theorem C84_after_use (fs : Conf.FS) (useFile : Bool) (cf : Conf.Conf) (llh : String) (cache cache' : Conf.Cache) (a : Conf.Atom)
    (h : Conf.resolve fs useFile cf (some llh) cache = (cache', .ok a)) : IsCurrent cache' llh cf.name (some a) := by
  unfold Conf.resolve at h
  split at h
  · rename_i hh
    rw [PyDict.has, Option.isSome_iff_exists] at hh
    obtain ⟨v, hv⟩ := hh
    simp only [Conf.Cache.get, PyDict.getItem, hv, Prod.mk.injEq] at h
    obtain ⟨rfl, h⟩ := h
    have hd : (cache.record cf.name).data.get? cf.name = some v := hv
    cases v with
    | atom b => left; simp only [Conf.pick, Except.ok.injEq] at h; rw [hd, h]
    | dict d =>
      right
      refine ⟨d, hd, ?_⟩
      simp only [Conf.pick, Option.bind_some] at h
      cases hg : PyDict.get? d llh with
      | none => rw [hg] at h; cases h
      | some b => rw [hg] at h; cases h; rfl
  · split at h
    · cases h
    · split at h
      · cases h
      · cases h
        left
        simp only [Conf.Cache.set]
        rw [PyDict.get?_set]; simp

/-- C84: the table is refused with the error of the dependencies, or with a `KeyError` when an option of a needed plugin is set per
likelihood without this one; building that plugin is then refused too. -/
theorem C84_errors (conf : Cfg → Conf.Conf) (cache : Conf.Cache) (c : Comp) (fuel : Nat) (names : List String) :
    (∀ e, deduceDeps c.registry "batch_size" fuel names [] = .error e → showConfig conf cache c fuel names = .error e) ∧
    (∀ deps, deduceDeps c.registry "batch_size" fuel names [] = .ok deps →
      ((∃ rs, showConfig conf cache c fuel names = .ok rs) ∨ showConfig conf cache c fuel names = .error .keyError) ∧
      (showConfig conf cache c fuel names = .error .keyError ↔
        ∃ d p o dict, Reach c.registry "batch_size" names d ∧ c.registry.get? d = some p ∧ o ∈ p.configs ∧
          cache.data.get? (conf o).name = some (.dict dict) ∧ dict.get? c.llhName = none)) ∧
    (∀ (fs : Conf.FS) (useFile : Bool) (cf : Conf.Conf) (dict : PyDict String Conf.Atom),
      cache.data.get? cf.name = some (.dict dict) → dict.get? c.llhName = none →
      (Conf.resolve fs useFile cf (some c.llhName) cache).2 = .error .valueError) := by
  refine ⟨fun e he => by simp only [showConfig, he, bind, Except.bind], fun deps hd => ?_, fun fs u cf dict h1 h2 => ?_⟩
  · have heq : showConfig conf cache c fuel names = showLoop conf cache c.llhName deps [] := by
      simp only [showConfig, hd, bind, Except.bind]
    rw [heq]
    refine ⟨?_, ?_⟩
    · rcases showLoop_total (conf := conf) (cache := cache) (llh := c.llhName) (l := deps) (seen := []) with h | h
      · exact .inl h
      · exact .inr h.1
    · constructor
      · intro he
        rcases showLoop_total (conf := conf) (cache := cache) (llh := c.llhName) (l := deps) (seen := []) with ⟨rs, h⟩ | ⟨-, p, hp, o, ho, h⟩
        · rw [h] at he; cases he
        · obtain ⟨d, h1, h2⟩ := (mem_fresh hd p).1 hp
          obtain ⟨dict, h3, h4⟩ := (current_error ..).1 h
          exact ⟨d, p, o, dict, h1, h2, ho, h3, h4⟩
      · rintro ⟨d, p, o, dict, h1, h2, ho, h3, h4⟩
        rcases showLoop_total (conf := conf) (cache := cache) (llh := c.llhName) (l := deps) (seen := []) with ⟨rs, h⟩ | ⟨h, -⟩
        · exfalso
          have hp := (mem_fresh hd p).2 ⟨d, h1, h2⟩
          have := (showLoop_ok h).1
          have hmem : (conf o).name ∈ rs.map Row.option := by
            rw [this]
            simp only [List.mem_flatMap, List.mem_map]
            exact ⟨p, hp, o, ho, rfl⟩
          obtain ⟨r, hr, hro⟩ := List.mem_map.1 hmem
          obtain ⟨p', _, o', _, cur, hc, rfl⟩ := ((showLoop_ok h).2 r).1 hr
          rw [show (conf o').name = (conf o).name from hro] at hc
          rw [(current_error ..).2 ⟨dict, h3, h4⟩] at hc
          cases hc
        · exact h
  · simp [Conf.resolve, PyDict.has, h1, h2, Conf.Cache.get, PyDict.getItem, Conf.pick]

/-- The configuration object of an option whose default is a text. -/
def exConf (c : Cfg) : Conf.Conf := ⟨c.name, c.default.map Conf.Atom.str⟩

def exP : Plugin := ⟨"P", ["x"], ["batch_size"], [], [⟨"shared", some "f"⟩, ⟨"own", none⟩]⟩
def exQ : Plugin := ⟨"Q", ["y"], ["x"], [], [⟨"shared", some "f"⟩]⟩
def exShow : Comp := { name := "er", llhName := "l", rateName := "", registry := (registerAll [] [exP, exQ]).1 }
def exCache : Conf.Cache := { data := [("own", .dict [("l", .num 3), ("m", .num 4)])] }

/-- C84: an option taken by two plugins is listed twice, once for each. -/
theorem C84_shared_option_twice :
    showConfig exConf exCache exShow 9 ["y"] =
      .ok [⟨"shared", some (.str "f"), none, ["y"]⟩, ⟨"shared", some (.str "f"), none, ["x"]⟩, ⟨"own", none, some (.num 3), ["x"]⟩] := by
  decide +kernel

example : showConfig exConf exCache { exShow with llhName := "n" } 9 ["y"] = .error .keyError := by decide +kernel
example : showConfig exConf exCache exShow 9 ["z"] = .error .valueError := by decide +kernel
example : IsCurrent exCache "l" "own" (some (.num 3)) := .inr ⟨[("l", .num 3), ("m", .num 4)], by decide +kernel, by decide +kernel⟩

/-! ### Copies -/

/-- C85: a copy has the class, a name ending in `_copy`, the likelihood name asked for or the one of the class, the bins if they are
passed on, and no rate; passing bins on that were never set is refused. -/
theorem C85_copy {B : Type} (c c' : Obj B) (llh : Option String) (pass : Bool) (h : newComponent c llh pass = .ok c') :
    c'.cls = c.cls ∧ c'.comp.name = c.comp.name ++ "_copy" ∧ c'.comp.llhName = llh.getD (c.cls.name ++ "_llh") ∧
    (pass = true → c'.bins = c.bins ∧ c.bins ≠ none) ∧ (pass = false → c'.bins = none) ∧
    c'.comp.rateName = "" ∧ c'.comp.forceNoEff = false ∧ c'.comp.simulate = none ∧
    c'.comp.registry = (registerAll [] c.cls.plugins).1 ∧ (registerAll [] c.cls.plugins).2 = .ok () := by
  have key : ∀ bins, construct c.cls (some (c.comp.name ++ "_copy")) llh bins = .ok c' →
      c'.cls = c.cls ∧ c'.comp.name = c.comp.name ++ "_copy" ∧ c'.comp.llhName = llh.getD (c.cls.name ++ "_llh") ∧
      c'.bins = bins ∧ c'.comp.rateName = "" ∧ c'.comp.forceNoEff = false ∧ c'.comp.simulate = none ∧
      c'.comp.registry = (registerAll [] c.cls.plugins).1 ∧ (registerAll [] c.cls.plugins).2 = .ok () := by
    intro bins hc
    simp only [construct] at hc
    split at hc
    · cases hc
    · split at hc
      · cases hc
      · rename_i reg hreg
        cases hc
        rw [hreg]
        exact ⟨rfl, rfl, rfl, rfl, rfl, rfl, rfl, rfl, rfl⟩
  unfold newComponent at h
  cases pass
  · rw [if_neg (by simp)] at h
    obtain ⟨h1, h2, h3, h4, h5⟩ := key _ h
    exact ⟨h1, h2, h3, by simp, fun _ => h4, h5⟩
  · rw [if_pos rfl] at h
    split at h
    · cases h
    · rename_i b hb
      obtain ⟨h1, h2, h3, h4, h5⟩ := key _ h
      exact ⟨h1, h2, h3, fun _ => ⟨by rw [h4, hb], by simp [hb]⟩, by simp, h5⟩

/-- C85: a component whose class can be constructed can be copied, with the bins if they are set; without bins, copying them is
refused. -/
theorem C85_copy_succeeds {B : Type} (c : Obj B) (llh : Option String) (hp : (registerAll [] c.cls.plugins).2 = .ok ()) :
    (∃ c', newComponent c llh false = .ok c') ∧
    (c.bins ≠ none → (∀ b t, c.bins = some (b, some t) → t = "irreg" ∨ t = "meshgrid") → ∃ c', newComponent c llh true = .ok c') ∧
    (c.bins = none → newComponent c llh true = .error .valueError) := by
  have hc : ∀ bins : Option (B × Option String), badType bins = false →
      ∃ c', construct c.cls (some (c.comp.name ++ "_copy")) llh bins = .ok c' := by
    intro bins hb
    simp only [construct, hb, Bool.false_eq_true, if_false]
    cases hreg : registerAll [] c.cls.plugins with
    | mk reg r =>
      rw [hreg] at hp
      cases hp
      exact ⟨_, rfl⟩
  refine ⟨hc none rfl, fun hn ht => ?_, fun hn => ?_⟩
  · cases hb : c.bins with
    | none => exact absurd hb hn
    | some b =>
      simp only [newComponent, if_true, hb]
      apply hc
      obtain ⟨b, t⟩ := b
      cases t with
      | none => rfl
      | some t => rcases ht b t hb with rfl | rfl <;> rfl
  · simp only [newComponent, if_true, hn]

/-- C85: the copy of a component with no plugins registered after construction simulates the same as the original, if its
options have the same values, and needs the same parameters except for the rate. -/
theorem C85_copy_simulates_partial {B : Type} (c c' : Obj B) (llh : Option String) (pass : Bool) (h : newComponent c llh pass = .ok c')
    (hreg : c.comp.registry = (registerAll [] c.cls.plugins).1)
    (a : DeduceArgs) (g g1 g' g1' : FnCache) (d d' : Comp)
    (hd : deduce c.comp g a = ((d, g1), .ok ())) (hd' : deduce c'.comp g' a = ((d', g1'), .ok ())) :
    ∃ code code', d.code = some code ∧ d'.code = some code' ∧ code'.outs = code.outs ∧
      (∀ (K V : Type) (ns : PyDict String Plugin) (sem : Plugin → K → List V → Res (K × List V)) (key : K) (input : V),
        code'.run ns sem key input = code.run ns sem key input) ∧
      ∀ q, q ∈ d.needed ↔ (c.comp.rateName ≠ "" ∧ q = c.comp.rateName) ∨ q ∈ d'.needed := by
  obtain ⟨-, -, -, -, -, hr, -, -, hreg', -⟩ := C85_copy c c' llh pass h
  obtain ⟨deps, ws, nd, h1, h2, h3, h4, -⟩ := deduce_code hd
  obtain ⟨deps', ws', nd', h1', h2', h3', h4', -⟩ := deduce_code hd'
  rw [hreg', ← hreg, h1] at h1'
  cases h1'
  rw [hr, if_pos rfl] at h2'
  have hacc := needLoop_acc a.required (worksheet deps) [] (if c.comp.rateName = "" then [] else [c.comp.rateName]) []
  rw [List.append_nil, h2, h2'] at hacc
  simp only [Prod.mk.injEq, and_true] at hacc
  obtain ⟨rfl, rfl⟩ := hacc
  refine ⟨_, _, h3, h3', rfl, fun K V ns sem key input => rfl, fun q => ?_⟩
  rw [h4, h4']
  split <;> simp_all

/-- C85: the copy of a component of a likelihood has lost the name of its rate.  The rate is not among the parameters it needs,
unless a plugin asks for it, and its histograms are refused with a `KeyError`. -/
theorem C85_rate_lost {B : Type} (c c' : Obj B) (llh : Option String) (pass : Bool) (h : newComponent c llh pass = .ok c')
    (a : DeduceArgs) (g g1 : FnCache) (d : Comp) (hd : deduce c'.comp g a = ((d, g1), .ok ()))
    (hname : DistinctNames c'.comp.registry a.nodep (outNames a.dataNames a.force)) :
    (∀ rate, (∀ x p, c'.comp.registry.get? x = some p →
        rate ∉ p.parameters ∧ ∀ o ∈ p.configs, a.required o ≠ .ok (some rate)) → rate ∉ d.needed) ∧
    d.rateName = "" ∧
    ∀ {K F : Type} [Field F] [LinearOrder F] (s : Llh.SimDesc K F), s.rateName = d.rateName → ∀ key batch p r,
      s.run key batch p = .ok r → p.get? "" = none →
      ∃ nd hist weighted, s.comp = .sim nd hist weighted ∧ hist key batch p = .error .keyError ∧
        weighted key batch p = .error .keyError := by
  obtain ⟨-, -, -, -, -, hr, -⟩ := C85_copy c c' llh pass h
  have hdr : d.rateName = "" := by
    simp only [deduce] at hd
    split at hd
    · cases hd
    split at hd
    · cases hd
    split at hd
    · cases hd
    cases hd
    exact hr
  refine ⟨fun rate hrate hq => ?_, hdr, fun s hs key batch p r hrun hp => ?_⟩
  · rcases (C13_needed_parameters _ _ _ _ _ hd hname rate).1 hq with ⟨h1, -⟩ | ⟨x, p, -, h1, h2 | ⟨o, ho, h2⟩⟩
    · exact h1 hr
    · exact (hrate x p h1).1 h2
    · exact (hrate x p h1).2 o ho h2
  · have hg : p.getItem s.rateName = .error .keyError := by rw [hs, hdr, PyDict.getItem, hp]
    refine ⟨_, _, _, rfl, ?_, ?_⟩
    · simp only [hrun, hg, bind, Except.bind]
    · simp only [hrun, hg, bind, Except.bind]

/-- C85: a copy under a likelihood name that is taken, as the original's own name or the default name of an earlier copy, cannot be
deduced. -/
theorem C85_name_taken {B : Type} (c c1 c2 : Obj B) (l1 l2 : Option String) (p1 p2 : Bool)
    (h1 : newComponent c l1 p1 = .ok c1) (h2 : newComponent c l2 p2 = .ok c2)
    (a b : DeduceArgs) (g g1 : FnCache) (d1 : Comp) (r2 : (Comp × FnCache) × Res Unit) :
    (l1.getD (c.cls.name ++ "_llh") = l2.getD (c.cls.name ++ "_llh") →
      deduce c1.comp g a = ((d1, g1), .ok ()) → deduce c2.comp g1 b = r2 → r2.2 ≠ .ok ()) ∧
    (l1 = some c.comp.llhName → deduce c.comp g a = ((d1, g1), .ok ()) → deduce c1.comp g1 b = r2 → r2.2 ≠ .ok ()) := by
  obtain ⟨-, -, e1, -⟩ := C85_copy c c1 l1 p1 h1
  obtain ⟨-, -, e2, -⟩ := C85_copy c c2 l2 p2 h2
  refine ⟨fun he hd hr hok => ?_, fun he hd hr hok => ?_⟩
  · obtain ⟨⟨x, y⟩, z⟩ := r2
    simp only at hok
    subst hok
    obtain ⟨_, _, _, -, -, -, -, -, ht⟩ := deduce_code hd
    obtain ⟨_, _, _, -, -, -, -, ht', -⟩ := deduce_code hr
    rw [e2, ← he, ← e1, ht] at ht'
    cases ht'
  · obtain ⟨⟨x, y⟩, z⟩ := r2
    simp only at hok
    subst hok
    obtain ⟨_, _, _, -, -, -, -, -, ht⟩ := deduce_code hd
    obtain ⟨_, _, _, -, -, -, -, ht', -⟩ := deduce_code hr
    rw [e1, he] at ht'
    simp only [Option.getD_some] at ht'
    rw [ht] at ht'
    cases ht'

def exCls : Class := ⟨"K", [exC, exA, exE, exB]⟩
def exObj : Obj Nat := ⟨exCls, exComp, some (7, some "irreg")⟩
/-- The component after another plugin for "b" was registered by the user. -/
def exB' : Plugin := ⟨"B2", ["b"], ["a"], ["pz"], []⟩
def exLater : Obj Nat := { exObj with comp := { exComp with registry := (register exReg exB').1 } }

/-- C85: plugins registered after construction are lost in the copy: its code uses the plugin of the class. -/
theorem C85_later_plugins_lost :
    ((newComponent exLater (some "m") true).toOption.map (fun c' =>
      ((deduce exLater.comp {} { dataNames := ["c"] }).1.1.worksheet.map Plugin.name,
        (deduce c'.comp {} { dataNames := ["c"] }).1.1.worksheet.map Plugin.name))) =
      some (["A", "B2", "E", "C"], ["A", "B", "E", "C"]) := by
  decide +kernel

example : exObj.comp.registry = (registerAll [] exObj.cls.plugins).1 := rfl
example : (newComponent exObj (some "m") true).toOption.map (fun c => (c.comp.name, c.comp.llhName, c.bins)) =
    some ("er_copy", "m", some (7, some "irreg")) := by decide +kernel
example : (newComponent exObj (some "m") true).toOption.map (fun c' =>
    ((deduce exObj.comp {} { dataNames := ["c"] }).1.1.needed, (deduce c'.comp {} { dataNames := ["c"] }).1.1.needed)) =
    some (["er_rate", "pa", "pb"], ["pa", "pb"]) := by decide +kernel
example : (newComponent (B := Nat) ⟨exCls, exComp, none⟩ none true).toOption.isNone := by decide +kernel

/-- C85: every shipped simulated component can be constructed and copied, with and without bins. -/
theorem C85_shipped {B : Type} (b : B) (name llh llh' : Option String) (n : String) (ps : List Plugin)
    (h : (n, ps) ∈ Shipped.components) :
    ∃ c : Obj B, construct ⟨n, ps⟩ name llh (some (b, some "irreg")) = .ok c ∧
      (∃ c', newComponent c llh' true = .ok c') ∧ ∃ c', newComponent c llh' false = .ok c' := by
  have hok : ∀ e ∈ Shipped.components, (registerAll [] e.2).2.isOk = true := by decide +kernel
  have hr := hok _ h
  obtain ⟨c, hc⟩ : ∃ c : Obj B, construct ⟨n, ps⟩ name llh (some (b, some "irreg")) = .ok c := by
    simp only [construct]
    cases hreg : registerAll [] ps with
    | mk reg r =>
      cases r with
      | error e => rw [hreg] at hr; cases hr
      | ok u => exact ⟨_, rfl⟩
  have hcls : c.cls = ⟨n, ps⟩ := by
    simp only [construct] at hc
    split at hc
    · cases hc
    split at hc
    · cases hc
    cases hc; rfl
  have hbins : c.bins = some (b, some "irreg") := by
    simp only [construct] at hc
    split at hc
    · cases hc
    split at hc
    · cases hc
    cases hc; rfl
  have hs := C85_copy_succeeds c llh' (by
    rw [hcls]
    cases hx : (registerAll [] ps).2 with
    | error e => rw [hx] at hr; cases hr
    | ok u => rfl)
  exact ⟨c, hc, hs.2.1 (by simp [hbins]) (by rw [hbins]; rintro _ _ ⟨⟩; exact .inl rfl), hs.1⟩

end Verif.Show
