/- Helper lemmas for sessions (not claims). -/
import Verif.Spec.Session
import Verif.Lemmas.Config
import Verif.Lemmas.Deps
import Verif.Base.MapM

namespace Verif.Session
open Verif Conf Comp

theorem holds_ext {c c' : Cache} (h : Ext c.data c'.data) {llh : String} {o : Opt} {b : Built} (hb : Holds c llh o b) :
    Holds c' llh o b := by
  unfold Holds at hb ⊢
  cases hk : o.kind with
  | constant => rw [hk] at hb; obtain ⟨a, h1, h2⟩ := hb; exact ⟨a, h1, valueFor_ext h h2⟩
  | map => rw [hk] at hb; obtain ⟨a, h1, h2⟩ := hb; exact ⟨a, h1, valueFor_ext h h2⟩
  | sigma => rw [hk] at hb; obtain ⟨a, h1, h2⟩ := hb; exact ⟨a, h1, h2.imp (fun _ _ h3 => valueFor_ext h h3)⟩

theorem buildMap_valueFor (fs : FS) (cf : Conf) (llh : Option String) (c : Cache) (p : String) (h : (buildMap fs cf llh c).2 = .ok p) :
    valueFor (buildMap fs cf llh c).1 cf.name llh = some (.str p) := by
  unfold buildMap at h ⊢
  have hv := resolve_valueFor fs true cf llh c
  generalize resolve fs true cf llh c = g at *
  obtain ⟨c1, r⟩ := g
  cases r with
  | error e => cases h
  | ok a =>
    have := hv a rfl
    simp only at this
    cases a with
    | str q =>
      simp only at h ⊢
      have hd := getFilePath_data fs q c1
      generalize getFilePath fs q c1 = g2 at *
      obtain ⟨c2, r2⟩ := g2
      cases r2 with
      | error e => cases h
      | ok q' =>
        simp only at h hd ⊢
        split at h
        · rename_i hl
          cases h
          rw [if_pos hl]
          unfold valueFor at this ⊢
          rw [hd]; exact this
        · cases h
    | _ => cases h

theorem sigmaBuild_holds (fs : FS) (cf : Conf) (l : String) (c : Cache) (files : List String) (h : (sigmaBuild fs cf (some l) c).2 = .ok files) :
    List.Forall₂ (fun sg f => valueFor (sigmaBuild fs cf (some l) c).1 (subName cf.name sg) (some l) = some (.str f))
      ["median", "lower", "upper"] files := by
  unfold sigmaBuild at h ⊢
  generalize getConfigs cf (some l) none c = g at *
  obtain ⟨c1, r1⟩ := g
  cases r1 with
  | error e => cases h
  | ok configs =>
    simp only at h ⊢
    cases hd : getDefault cf.default with
    | error e => rw [hd] at h; cases h
    | ok dflt =>
      rw [hd] at h
      simp only at h ⊢
      split at h
      · cases h
      · rename_i ht
        rw [if_neg ht]
        obtain ⟨_, _, _, hs⟩ := sigmaLoop_spec cf configs dflt l [("median", 0), ("lower", 1), ("upper", 2)] c1
        generalize sigmaLoop cf configs dflt (some l) [("median", 0), ("lower", 1), ("upper", 2)] c1 = g at *
        obtain ⟨c2, r2⟩ := g
        cases r2 with
        | error e => cases h
        | ok subs =>
          simp only at h ⊢
          have hs' := hs subs rfl
          simp only at hs'
          obtain ⟨hb1, hb2⟩ := buildMaps_cached fs (some l) subs c2 (by
            intro s hs0
            obtain ⟨x, _, hx⟩ := forall₂_mem_right hs' s hs0
            exact hx.1)
          generalize buildMaps fs (some l) subs c2 = g at *
          obtain ⟨c3, r3⟩ := g
          cases r3 with
          | error e => cases h
          | ok fl =>
            simp only at h hb1 ⊢
            have h4 := requiredParameter_ext cf (some l) none c3
            generalize requiredParameter cf (some l) none c3 = g at *
            obtain ⟨c4, r4⟩ := g
            cases r4 with
            | error e => cases h
            | ok q =>
              simp only [Except.ok.injEq] at h
              subst h
              have hf := hb2 fl rfl
              rcases hs' with _ | ⟨a0, hs'⟩
              rcases hs' with _ | ⟨a1, hs'⟩
              rcases hs' with _ | ⟨a2, hs'⟩
              cases hs'
              rcases hf with _ | ⟨b0, hf⟩
              rcases hf with _ | ⟨b1, hf⟩
              rcases hf with _ | ⟨b2, hf⟩
              cases hf
              have up : ∀ (n : String) (f : String), valueFor c2 n (some l) = some (.str f) → valueFor c4 n (some l) = some (.str f) := by
                intro n f hn
                apply valueFor_ext h4
                unfold valueFor at hn ⊢
                rw [hb1]; exact hn
              exact .cons (up _ _ (by rw [← a0.1]; exact b0)) (.cons (up _ _ (by rw [← a1.1]; exact b1)) (.cons (up _ _ (by rw [← a2.1]; exact b2)) .nil))

theorem buildOpt_ext (fs : FS) (llh : String) (o : Opt) (c : Cache) : Ext c.data (buildOpt fs llh o c).1.data := by
  unfold buildOpt
  cases o.kind with
  | constant => exact resolve_ext _ _ _ _ _
  | map => exact buildMap_ext _ _ _ _
  | sigma => exact sigmaBuild_ext _ _ _ _

theorem buildOpt_holds (fs : FS) (llh : String) (o : Opt) (c : Cache) (b : Built) (h : (buildOpt fs llh o c).2 = .ok b) :
    Holds (buildOpt fs llh o c).1 llh o b := by
  unfold buildOpt at h ⊢
  unfold Holds
  cases hk : o.kind with
  | constant =>
    rw [hk] at h
    simp only at h ⊢
    cases hr : (resolve fs false o.conf (some llh) c).2 with
    | error e => rw [hr] at h; cases h
    | ok a => rw [hr] at h; cases h; exact ⟨a, rfl, resolve_valueFor _ _ _ _ _ _ hr⟩
  | map =>
    rw [hk] at h
    simp only at h ⊢
    cases hr : (buildMap fs o.conf (some llh) c).2 with
    | error e => rw [hr] at h; cases h
    | ok a => rw [hr] at h; cases h; exact ⟨a, rfl, buildMap_valueFor _ _ _ _ _ hr⟩
  | sigma =>
    rw [hk] at h
    simp only at h ⊢
    cases hr : (sigmaBuild fs o.conf (some llh) c).2 with
    | error e => rw [hr] at h; cases h
    | ok a => rw [hr] at h; cases h; exact ⟨a, rfl, sigmaBuild_holds _ _ _ _ _ hr⟩

theorem buildOpts_ext (fs : FS) (llh : String) (os : List Opt) (inst : Inst) (c : Cache) :
    Ext c.data (buildOpts fs llh os inst c).1.data := by
  induction os generalizing inst c with
  | nil => exact Ext.refl _
  | cons o os ih =>
    rw [buildOpts]
    have h := buildOpt_ext fs llh o c
    generalize buildOpt fs llh o c = g at *
    obtain ⟨c1, r⟩ := g
    cases r with
    | error e => exact h
    | ok b => exact h.trans (ih _ _)

theorem buildOpts_holds (fs : FS) (llh : String) (os : List Opt) (inst inst' : Inst) (c : Cache)
    (hn : (os.map (fun o => o.conf.name)).Nodup) (h : (buildOpts fs llh os inst c).2 = .ok inst') :
    (∀ k, k ∉ os.map (fun o => o.conf.name) → inst'.get? k = inst.get? k) ∧
    ∀ o ∈ os, ∃ b, inst'.get? o.conf.name = some b ∧ Holds (buildOpts fs llh os inst c).1 llh o b := by
  induction os generalizing inst c with
  | nil => rw [buildOpts] at h; cases h; exact ⟨fun _ _ => rfl, by simp⟩
  | cons o os ih =>
    simp only [List.map_cons, List.nodup_cons] at hn
    rw [buildOpts] at h ⊢
    have hh := buildOpt_holds fs llh o c
    generalize buildOpt fs llh o c = g at *
    obtain ⟨c1, r⟩ := g
    cases r with
    | error e => cases h
    | ok b =>
      simp only at h hh ⊢
      obtain ⟨i1, i2⟩ := ih _ _ hn.2 h
      refine ⟨fun k hk => ?_, fun o' ho' => ?_⟩
      · simp only [List.map_cons, List.mem_cons, not_or] at hk
        rw [i1 k hk.2, PyDict.get?_set_ne _ _ (Ne.symm hk.1)]
      · rcases List.mem_cons.1 ho' with rfl | ho'
        · exact ⟨b, by rw [i1 _ hn.1, PyDict.get?_set_self], holds_ext (buildOpts_ext _ _ _ _ _) (hh b rfl)⟩
        · exact i2 o' ho'

theorem instName_inj (a b comp : String) (h : instName a comp = instName b comp) : a = b := by
  unfold instName at h
  have := congrArg String.toList h
  simp only [String.toList_append] at this
  rw [List.append_assoc, List.append_assoc] at this
  exact String.toList_injective (List.append_cancel_right this)

theorem makeAll_ext (E : Env) (llh comp : String) (cls : List (String × Plugin)) (g : PyDict String Inst) (c : Cache) :
    Ext c.data (makeAll E llh comp cls g c).1.data := by
  induction cls generalizing g c with
  | nil => exact Ext.refl _
  | cons x cls ih =>
    obtain ⟨n, p⟩ := x
    rw [makeAll]
    split
    · exact Ext.refl _
    · have h := buildOpts_ext E.fs llh (p.configs.map E.opt) [] c
      generalize buildOpts E.fs llh (p.configs.map E.opt) [] c = q at *
      obtain ⟨c1, r⟩ := q
      cases r with
      | error e => exact h
      | ok b => exact h.trans (ih _ _)

theorem makeAll_holds (E : Env) (llh comp : String) (cls : List (String × Plugin)) (g : PyDict String Inst) (c : Cache)
    (hn : (cls.map Prod.fst).Nodup) (hc : ∀ x ∈ cls, (x.2.configs.map (fun cfg => (E.opt cfg).conf.name)).Nodup)
    (h : (makeAll E llh comp cls g c).2.2 = .ok ()) :
    (∀ k, (∀ x ∈ cls, k ≠ instName x.1 comp) → (makeAll E llh comp cls g c).2.1.get? k = g.get? k) ∧
    ∀ x ∈ cls, ∃ inst, (makeAll E llh comp cls g c).2.1.get? (instName x.1 comp) = some inst ∧
      ∀ cfg ∈ x.2.configs, ∃ b, inst.get? (E.opt cfg).conf.name = some b ∧ Holds (makeAll E llh comp cls g c).1 llh (E.opt cfg) b := by
  induction cls generalizing g c with
  | nil => exact ⟨fun _ _ => rfl, by simp⟩
  | cons x cls ih =>
    obtain ⟨n, p⟩ := x
    simp only [List.map_cons, List.nodup_cons] at hn
    rw [makeAll] at h ⊢
    split at h
    · cases h
    · rename_i hd
      rw [if_neg hd]
      have hh := buildOpts_holds E.fs llh (p.configs.map E.opt) []
      have hcn := hc (n, p) (by simp)
      have hh := fun inst' h => hh inst' c (by rw [List.map_map]; exact hcn) h
      generalize buildOpts E.fs llh (p.configs.map E.opt) [] c = q at *
      obtain ⟨c1, r⟩ := q
      cases r with
      | error e => cases h
      | ok b =>
        simp only at h hh ⊢
        obtain ⟨i1, i2⟩ := ih (g.set (instName n comp) b) c1 hn.2 (fun x hx => hc x (by simp [hx])) h
        refine ⟨fun k hk => ?_, fun y hy => ?_⟩
        · rw [i1 k (fun y hy => hk y (by simp [hy])), PyDict.get?_set_ne _ _ (Ne.symm (hk (n, p) (by simp)))]
        · rcases List.mem_cons.1 hy with rfl | hy
          · refine ⟨b, ?_, ?_⟩
            · rw [i1 _ (fun y hy e => hn.1 (List.mem_map.2 ⟨y, hy, (instName_inj _ _ _ e).symm⟩)), PyDict.get?_set_self]
            · intro cfg hcfg
              obtain ⟨b', hb', hb2⟩ := (hh b rfl).2 (E.opt cfg) (List.mem_map.2 ⟨cfg, hcfg, rfl⟩)
              exact ⟨b', hb', holds_ext (makeAll_ext _ _ _ _ _ _) hb2⟩
          · exact i2 y hy

/-! ### The components -/

theorem deduce_name {c : Comp.Comp} {g : FnCache} {a : DeduceArgs} : (Comp.deduce c g a).1.1.name = c.name ∧
    (Comp.deduce c g a).1.1.llhName = c.llhName ∧ (Comp.deduce c g a).1.1.simulate = c.simulate := by
  unfold Comp.deduce
  simp only
  split
  · exact ⟨rfl, rfl, rfl⟩
  · split
    · exact ⟨rfl, rfl, rfl⟩
    · split <;> exact ⟨rfl, rfl, rfl⟩

theorem compile_name {c : Comp.Comp} {g : FnCache} : (Comp.compile c g).1.1.name = c.name ∧ (Comp.compile c g).1.1.llhName = c.llhName := by
  unfold Comp.compile
  split
  · exact ⟨rfl, rfl⟩
  · simp only
    split
    · exact ⟨rfl, rfl⟩
    · split <;> exact ⟨rfl, rfl⟩

theorem step_name (w : World) (o : Comp.Op) (i : Nat) :
    ((Comp.step w o).1.comps i).name = (w.comps i).name ∧ ((Comp.step w o).1.comps i).llhName = (w.comps i).llhName := by
  cases o with
  | clear => exact ⟨rfl, rfl⟩
  | deduce j a =>
    simp only [Comp.step, setComp]
    split
    · rename_i h; subst h; exact ⟨deduce_name.1, deduce_name.2.1⟩
    · exact ⟨rfl, rfl⟩
  | compile j =>
    simp only [Comp.step, setComp]
    split
    · rename_i h; subst h; exact compile_name
    · exact ⟨rfl, rfl⟩

/-- Each operation of a session does at most one operation on the components. -/
theorem step_world (E : Env) (s : State) (o : Op) : (step E s o).1.world = s.world ∨
    ∃ co, (step E s o).1.world = (Comp.step s.world co).1 ∧
      ((co = .clear ∧ o = .clear) ∨ (∃ i, co = .compile i ∧ o = .compile i) ∨ ∃ i a b, co = .deduce i a ∧ o = .deduce i b) := by
  cases o with
  | setConfig a => exact .inl rfl
  | context u e => exact .inl rfl
  | clear => exact .inr ⟨.clear, rfl, .inl ⟨rfl, rfl⟩⟩
  | deduce i a => exact .inr ⟨_, rfl, .inr (.inr ⟨i, _, a, rfl, rfl⟩)⟩
  | compile i =>
    simp only [step, compileStep]
    split
    · exact .inl rfl
    · split
      · exact .inl rfl
      · split
        · exact .inl rfl
        · split
          · rename_i w e hw
            exact .inr ⟨.compile i, by rw [hw], .inr (.inl ⟨i, rfl, rfl⟩)⟩
          · rename_i w hw
            exact .inr ⟨.compile i, by rw [hw], .inr (.inl ⟨i, rfl, rfl⟩)⟩

theorem step_names (E : Env) (s : State) (o : Op) (i : Nat) :
    ((step E s o).1.world.comps i).name = (s.world.comps i).name ∧ ((step E s o).1.world.comps i).llhName = (s.world.comps i).llhName := by
  rcases step_world E s o with h | ⟨co, h, _⟩
  · rw [h]; exact ⟨rfl, rfl⟩
  · rw [h]; exact step_name _ _ _

/-- Component `i` alone executes code in the dictionary `d`. -/
def Own (s : State) (i d : Nat) : Prop :=
  d < s.world.cache.heap.length ∧ ∀ j c, (s.world.comps j).target = some (d, c) → j = i

theorem comp_heap (w : World) (o : Comp.Op) : w.cache.heap.length ≤ (Comp.step w o).1.cache.heap.length := by
  cases o with
  | clear => exact le_refl _
  | compile j =>
    simp only [Comp.step]
    cases hcc : Comp.compile (w.comps j) w.cache with
    | mk s r =>
      obtain ⟨c', g'⟩ := s
      obtain ⟨_, _, _, _, h5, h6⟩ := compile_spec hcc
      simp only
      cases ht : (w.comps j).target with
      | none => rw [h5 ht]
      | some x => rw [h6 x.1 x.2 ht, List.length_modify]
  | deduce j a =>
    simp only [Comp.step]
    cases hd : Comp.deduce (w.comps j) w.cache a with
    | mk s r =>
      obtain ⟨c', g'⟩ := s
      cases r with
      | error e => rw [(deduce_error hd).1]
      | ok u =>
        obtain ⟨deps, nd, _, _, _, _, rfl⟩ := deduce_ok_iff hd
        simp

theorem own_comp (w : World) (o : Comp.Op) (i d : Nat) (hd : d < w.cache.heap.length)
    (h : ∀ j c, (w.comps j).target = some (d, c) → j = i) : ∀ j c, ((Comp.step w o).1.comps j).target = some (d, c) → j = i := by
  intro j c hj
  cases o with
  | clear => exact h j c hj
  | compile k =>
    simp only [Comp.step, setComp] at hj
    split at hj
    · rename_i e; subst e
      cases hcc : Comp.compile (w.comps j) w.cache with
      | mk s r =>
        obtain ⟨c', g'⟩ := s
        rw [hcc] at hj
        rw [(compile_spec hcc).1] at hj
        exact h j c hj
    · exact h j c hj
  | deduce k a =>
    simp only [Comp.step, setComp] at hj
    split at hj
    · rename_i e; subst e
      cases hdd : Comp.deduce (w.comps j) w.cache a with
      | mk s r =>
        obtain ⟨c', g'⟩ := s
        rw [hdd] at hj
        cases r with
        | error e => rw [(deduce_error hdd).2.1] at hj; exact h j c hj
        | ok u =>
          obtain ⟨deps, nd, _, _, rfl, _, _⟩ := deduce_ok_iff hdd
          simp only [Option.some.injEq, Prod.mk.injEq] at hj
          omega
    · exact h j c hj

theorem own_step (E : Env) (s : State) (o : Op) (i d : Nat) (h : Own s i d) : Own (step E s o).1 i d := by
  rcases step_world E s o with hw | ⟨co, hw, _⟩
  · unfold Own; rw [hw]; exact h
  · unfold Own; rw [hw]
    exact ⟨lt_of_lt_of_le h.1 (comp_heap _ _), own_comp _ _ _ _ h.1 h.2⟩

/-- What a step that does not compile `i` leaves alone. -/
theorem frozen_step (E : Env) (s : State) (o : Op) (i d : Nat) (h : Own s i d) (ho : o ≠ .compile i) :
    (step E s o).1.globals d = s.globals d ∧ (step E s o).1.sees i = s.sees i ∧
    ((step E s o).1.world.comps i).simulate = (s.world.comps i).simulate := by
  cases o with
  | setConfig a => exact ⟨rfl, rfl, rfl⟩
  | context u e => exact ⟨rfl, rfl, rfl⟩
  | clear => exact ⟨rfl, rfl, rfl⟩
  | deduce j a =>
    refine ⟨rfl, rfl, ?_⟩
    simp only [step, deduceStep, Comp.step, setComp]
    split
    · rename_i e; subst e; exact deduce_name.2.2
    · rfl
  | compile j =>
    have hji : j ≠ i := fun e => ho (by rw [e])
    simp only [step, compileStep]
    split
    · exact ⟨rfl, rfl, rfl⟩
    · rename_i id code ht
      have hid : d ≠ id := by
        rintro rfl
        exact hji (h.2 j code ht)
      have hs : ∀ w r, Comp.step s.world (.compile j) = (w, r) → (w.comps i).simulate = (s.world.comps i).simulate := by
        intro w r hw
        simp only [Comp.step, Prod.mk.injEq] at hw
        rw [← hw.1]
        simp only [setComp, if_neg (Ne.symm hji)]
      split
      · exact ⟨rfl, rfl, rfl⟩
      · split
        · exact ⟨by simp [upd, hid], rfl, rfl⟩
        · split
          · rename_i w e hw; exact ⟨by simp [upd, hid], rfl, hs _ _ hw⟩
          · rename_i w hw; exact ⟨by simp [upd, hid], by simp [upd, Ne.symm hji], hs _ _ hw⟩

/-! ### Sessions without clearing -/

/-- Without clearing, what a component was deduced to is still cached, and its simulator sees its own dictionary. -/
structure SInv (s : State) : Prop where
  inv : Comp.Inv s.world
  live : ∀ i d code, (s.world.comps i).target = some (d, code) → s.world.cache.cache.get? (s.world.comps i).llhName = some d ∧
    code.compName = (s.world.comps i).name ∧ code.llhName = (s.world.comps i).llhName ∧ (code.works.map Work.name).Nodup
  sees : ∀ i d, s.sees i = some d → ∃ code, (s.world.comps i).target = some (d, code)

theorem Fresh.sinv {s : State} (h : Fresh s) : SInv s where
  inv := h.1.inv
  live := by intro i d code ht; rw [h.1.2 i] at ht; cases ht
  sees := by intro i d hs; rw [h.2 i] at hs; cases hs

theorem comp_live (w : World) (o : Comp.Op) (ho : o ≠ .clear)
    (h : ∀ i d code, (w.comps i).target = some (d, code) → w.cache.cache.get? (w.comps i).llhName = some d ∧
      code.compName = (w.comps i).name ∧ code.llhName = (w.comps i).llhName ∧ (code.works.map Work.name).Nodup) :
    (∀ i d code, ((Comp.step w o).1.comps i).target = some (d, code) →
      (Comp.step w o).1.cache.cache.get? ((Comp.step w o).1.comps i).llhName = some d ∧
      code.compName = ((Comp.step w o).1.comps i).name ∧ code.llhName = ((Comp.step w o).1.comps i).llhName ∧ (code.works.map Work.name).Nodup) ∧
    ∀ i d code, (w.comps i).target = some (d, code) → ((Comp.step w o).1.comps i).target = some (d, code) := by
  have keep : ∀ i d code, (w.comps i).target = some (d, code) → (Comp.step w o).1.cache.cache.get? ((Comp.step w o).1.comps i).llhName = some d ∧
      ((Comp.step w o).1.comps i).target = some (d, code) := by
    intro i d code ht
    exact live_step i d code o ho (h i d code ht).1 ht
  refine ⟨?_, fun i d code ht => (keep i d code ht).2⟩
  intro i d code ht
  obtain ⟨hn1, hn2⟩ := step_name w o i
  cases hold : (w.comps i).target with
  | some x =>
    obtain ⟨d', code'⟩ := x
    obtain ⟨k1, k2⟩ := keep i d' code' hold
    rw [k2] at ht
    cases ht
    obtain ⟨_, l2, l3, l4⟩ := h i d code hold
    exact ⟨k1, by rw [hn1]; exact l2, by rw [hn2]; exact l3, l4⟩
  | none =>
    cases o with
    | clear => exact absurd rfl ho
    | compile j =>
      exfalso
      simp only [Comp.step, setComp] at ht
      split at ht
      · rename_i e; subst e
        cases hcc : Comp.compile (w.comps i) w.cache with
        | mk s r =>
          obtain ⟨c', g'⟩ := s
          rw [hcc] at ht
          rw [(compile_spec hcc).1, hold] at ht
          cases ht
      · rw [hold] at ht; cases ht
    | deduce j a =>
      simp only [Comp.step, setComp] at ht ⊢
      split at ht
      · rename_i e; subst e
        rw [if_pos rfl]
        cases hdd : Comp.deduce (w.comps i) w.cache a with
        | mk s r =>
          obtain ⟨c', g'⟩ := s
          rw [hdd] at ht
          cases r with
          | error e => rw [(deduce_error hdd).2.1, hold] at ht; cases ht
          | ok u =>
            obtain ⟨deps, nd, _, _, rfl, _, rfl⟩ := deduce_ok_iff hdd
            simp only [Option.some.injEq, Prod.mk.injEq] at ht
            obtain ⟨rfl, rfl⟩ := ht
            refine ⟨by simp, rfl, rfl, ?_⟩
            have : ((genCode (w.comps i).name (w.comps i).llhName (worksheet deps) (outNames a.dataNames a.force) a.funcName a.nodep).works.map
                Work.name) = (worksheet deps).map Plugin.name := by
              simp only [genCode, List.map_map]
              rfl
            rw [this, worksheet_eq]
            exact firsts_names_nodup _ _
      · rw [hold] at ht; cases ht

theorem SInv.step {E : Env} {s : State} (h : SInv s) (o : Op) (ho : o ≠ .clear) : SInv (step E s o).1 := by
  have hsees : ∀ (s' : State), s'.sees = s.sees → (∀ i d code, (s.world.comps i).target = some (d, code) → (s'.world.comps i).target = some (d, code)) →
      ∀ i d, s'.sees i = some d → ∃ code, (s'.world.comps i).target = some (d, code) := by
    intro s' h1 h2 i d hd
    rw [h1] at hd
    obtain ⟨code, hc⟩ := h.sees i d hd
    exact ⟨code, h2 i d code hc⟩
  cases o with
  | clear => exact absurd rfl ho
  | setConfig a => exact ⟨h.inv, h.live, h.sees⟩
  | context u e => exact ⟨h.inv, h.live, h.sees⟩
  | deduce j a =>
    obtain ⟨l1, l2⟩ := comp_live s.world (.deduce j { a with required := requiredOf E (s.world.comps j).llhName s.conf }) (by simp) h.live
    exact ⟨h.inv.step _, l1, hsees _ rfl l2⟩
  | compile j =>
    obtain ⟨l1, l2⟩ := comp_live s.world (.compile j) (by simp) h.live
    have hi := h.inv.step (.compile j)
    simp only [Session.step, compileStep]
    split
    · exact h
    · rename_i id code ht
      split
      · exact h
      · split
        · exact ⟨h.inv, h.live, h.sees⟩
        · split
          · rename_i w e hw
            rw [hw] at l1 l2 hi
            exact ⟨hi, l1, hsees _ rfl l2⟩
          · rename_i w hw
            rw [hw] at l1 l2 hi
            refine ⟨hi, l1, ?_⟩
            intro i d hd
            simp only [upd] at hd
            split at hd
            · rename_i e; subst e
              have h3 := l2 i id code ht
              have h4 := (l1 i id code h3).1
              simp only at h4 hd h3 ⊢
              rw [h4] at hd
              cases hd
              exact ⟨code, h3⟩
            · obtain ⟨code', hc⟩ := h.sees i d hd
              exact ⟨code', l2 i d code' hc⟩

theorem SInv.run {E : Env} {s : State} (h : SInv s) (ops : List Op) (ho : Op.clear ∉ ops) : SInv (run E s ops) := by
  unfold Session.run
  induction ops generalizing s with
  | nil => exact h
  | cons o ops ih => exact ih (h.step o (fun e => ho (by simp [e]))) (fun e => ho (by simp [e]))

theorem SInv.own {s : State} (h : SInv s) (i d : Nat) (hs : s.sees i = some d) : Own s i d := by
  obtain ⟨code, hc⟩ := h.sees i d hs
  exact ⟨(h.inv.own i d code hc).1, fun j c hj => h.inv.sep j i d c code hj hc⟩

theorem buildOpts_built (fs : FS) (llh : String) (os : List Opt) (inst inst' : Inst) (c : Cache) (h : (buildOpts fs llh os inst c).2 = .ok inst') :
    ∀ o ∈ os, ∃ c' b, Ext c.data c'.data ∧ (buildOpt fs llh o c').2 = .ok b := by
  induction os generalizing inst c with
  | nil => simp
  | cons o os ih =>
    rw [buildOpts] at h
    cases hb : buildOpt fs llh o c with
    | mk c1 r =>
      rw [hb] at h
      cases r with
      | error e => cases h
      | ok b =>
        intro o' ho'
        rcases List.mem_cons.1 ho' with rfl | ho'
        · exact ⟨c, b, Ext.refl _, by rw [hb]⟩
        · obtain ⟨c', b', h1, h2⟩ := ih _ _ h o' ho'
          have h3 := buildOpt_ext fs llh o c
          rw [hb] at h3
          exact ⟨c', b', h3.trans h1, h2⟩

theorem makeAll_built (E : Env) (llh comp : String) (cls : List (String × Plugin)) (g : PyDict String Inst) (c : Cache)
    (h : (makeAll E llh comp cls g c).2.2 = .ok ()) :
    ∀ x ∈ cls, ∀ cfg ∈ x.2.configs, ∃ c' b, Ext c.data c'.data ∧ (buildOpt E.fs llh (E.opt cfg) c').2 = .ok b := by
  induction cls generalizing g c with
  | nil => simp
  | cons x cls ih =>
    obtain ⟨n, p⟩ := x
    rw [makeAll] at h
    split at h
    · cases h
    · cases hb : buildOpts E.fs llh (p.configs.map E.opt) [] c with
      | mk c1 r =>
        rw [hb] at h
        cases r with
        | error e => cases h
        | ok inst =>
          intro y hy cfg hcfg
          rcases List.mem_cons.1 hy with rfl | hy
          · exact buildOpts_built E.fs llh _ [] inst c (by rw [hb]) (E.opt cfg) (List.mem_map.2 ⟨cfg, hcfg, rfl⟩)
          · obtain ⟨c', b', h1, h2⟩ := ih _ _ h y hy cfg hcfg
            have h3 := buildOpts_ext E.fs llh (p.configs.map E.opt) [] c
            rw [hb] at h3
            exact ⟨c', b', h3.trans h1, h2⟩

theorem compile_ext (E : Env) (s : State) (i : Nat) : Ext s.conf.data (step E s (.compile i)).1.conf.data := by
  simp only [step, compileStep]
  split
  · exact Ext.refl _
  · rename_i id code _
    split
    · exact Ext.refl _
    · rename_i cls _
      have h := makeAll_ext E code.llhName code.compName cls (s.globals id) s.conf
      split
      · rename_i hm; rw [hm] at h; exact h
      · rename_i hm; rw [hm] at h
        split <;> exact h

theorem run_append (E : Env) (s : State) (a b : List Op) : run E s (a ++ b) = run E (run E s a) b := by
  simp [run]

theorem target_persist (E : Env) (s : State) (h : SInv s) (ops : List Op) (ho : Op.clear ∉ ops) (i d : Nat) (code : Code)
    (ht : (s.world.comps i).target = some (d, code)) : ((run E s ops).world.comps i).target = some (d, code) := by
  unfold run
  induction ops generalizing s with
  | nil => exact ht
  | cons o ops ih =>
    refine ih (step E s o).1 (h.step o (fun e => ho (by simp [e]))) (fun e => ho (by simp [e])) ?_
    rcases step_world E s o with hw | ⟨co, hw, hc⟩
    · rw [hw]; exact ht
    · rw [hw]
      refine (comp_live s.world co ?_ h.live).2 i d code ht
      rintro rfl
      rcases hc with ⟨_, e⟩ | ⟨j, e, _⟩ | ⟨j, a, b, e, _⟩
      · exact ho (by simp [e])
      · cases e
      · cases e

/-! ### The parameter of a SigmaMap -/

theorem requiredParameter_attr (cf : Conf) (llh : String) (c : Cache) :
    requiredParameter cf (some llh) none c = requiredParameter cf none (some llh) c := rfl

theorem getConfigs_cache (cf : Conf) (llh : String) (c : Cache) :
    (getConfigs cf none (some llh) c).1.data = c.data ∨
      (c.data.get? cf.name = none ∧ ∃ a, cf.default = some a ∧ (getConfigs cf none (some llh) c).1.data = c.data.set cf.name (.atom a)) := by
  unfold getConfigs
  by_cases hh : c.data.has cf.name = true
  · simp only [hh, if_true]
    left
    cases hg : c.data.get? cf.name with
    | none => simp [Cache.get, PyDict.getItem, hg, Cache.record]
    | some v => simp [Cache.get, PyDict.getItem, hg, Cache.record]
  · simp only [hh]
    cases hd : cf.default with
    | none => left; simp [getDefault]
    | some a =>
      right
      exact ⟨(has_false_iff _ _).1 (by simpa using hh), a, rfl, by simp [getDefault, Cache.set]⟩

theorem getConfigs_data (cf : Conf) (llh : String) (c c' : Cache) (h : c.data = c'.data) :
    (getConfigs cf none (some llh) c).2 = (getConfigs cf none (some llh) c').2 := by
  unfold getConfigs
  rw [h]
  by_cases hh : c'.data.has cf.name = true
  · simp only [hh, if_true, Cache.get, h]
    cases c'.data.getItem cf.name <;> rfl
  · simp only [hh]
    cases getDefault cf.default <;> rfl

theorem getConfigs_after (cf cf' : Conf) (hcf : cf.name = cf'.name → cf = cf') (llh : String) (c : Cache) :
    (getConfigs cf none (some llh) (getConfigs cf' none (some llh) c).1).2 = (getConfigs cf none (some llh) c).2 := by
  rcases getConfigs_cache cf' llh c with h | ⟨hn, a, ha, h⟩
  · exact getConfigs_data _ _ _ _ h
  · generalize (getConfigs cf' none (some llh) c).1 = c2 at h
    unfold getConfigs
    rw [h]
    by_cases he : cf.name = cf'.name
    · obtain rfl := hcf he
      have h1 : (c.data.set cf.name (.atom a)).has cf.name = true := by
        rw [PyDict.has_iff, PyDict.mem_keys_iff, PyDict.get?_set]; simp
      have h2 : c.data.has cf.name = false := (has_false_iff _ _).2 hn
      simp only [h1, h2, if_true, ha, getDefault, Cache.get, h]
      simp [PyDict.getItem, PyDict.get?_set, pick]
    · have hg : (c.data.set cf'.name (.atom a)).get? cf.name = c.data.get? cf.name := by
        rw [PyDict.get?_set, if_neg (fun e => he e.symm)]
      have hh : (c.data.set cf'.name (.atom a)).has cf.name = c.data.has cf.name := by
        unfold PyDict.has; rw [hg]
      rw [hh]
      by_cases hb : c.data.has cf.name = true
      · simp only [hb, if_true, Cache.get, PyDict.getItem, h, hg]
        cases c.data.get? cf.name <;> rfl
      · simp only [hb]
        cases getDefault cf.default <;> rfl

theorem requiredParameter_cache (cf : Conf) (llh : String) (c : Cache) :
    (requiredParameter cf none (some llh) c).1 = (getConfigs cf none (some llh) c).1 := by
  unfold requiredParameter
  generalize getConfigs cf none (some llh) c = g
  obtain ⟨c1, r⟩ := g
  cases r with
  | error e => rfl
  | ok a => cases a <;> rfl

theorem requiredParameter_after (cf cf' : Conf) (hcf : cf.name = cf'.name → cf = cf') (llh : String) (c : Cache) :
    (requiredParameter cf none (some llh) (requiredParameter cf' none (some llh) c).1).2 = (requiredParameter cf none (some llh) c).2 := by
  rw [requiredParameter_cache]
  have h := getConfigs_after cf cf' hcf llh c
  unfold requiredParameter
  generalize getConfigs cf none (some llh) (getConfigs cf' none (some llh) c).1 = g at *
  generalize getConfigs cf none (some llh) c = g' at *
  obtain ⟨c1, r⟩ := g
  obtain ⟨c2, r'⟩ := g'
  simp only at h
  subst h
  cases r with
  | error e => rfl
  | ok a => cases a <;> rfl

theorem requiredParameter_readRequired (E : Env)
    (hopt : ∀ c c', (E.opt c).conf.name = (E.opt c').conf.name → (E.opt c).conf = (E.opt c').conf) (llh : String) (l : List Cfg) (c : Cache)
    (cfg : Cfg) : (requiredParameter (E.opt cfg).conf none (some llh) (readRequired E llh l c)).2 =
      (requiredParameter (E.opt cfg).conf none (some llh) c).2 := by
  induction l generalizing c with
  | nil => rfl
  | cons x l ih =>
    unfold readRequired
    cases hk : (E.opt x).kind with
    | constant => exact ih c
    | map => exact ih c
    | sigma =>
      have := requiredParameter_after (E.opt cfg).conf (E.opt x).conf (hopt cfg x) llh c
      simp only
      generalize requiredParameter (E.opt x).conf none (some llh) c = g at *
      obtain ⟨c1, r⟩ := g
      cases r with
      | error e => exact this
      | ok a => simp only; rw [ih c1]; exact this

theorem getConfigs_stores (cf : Conf) (llh : String) (c : Cache) (a : Atom) (h : (getConfigs cf none (some llh) c).2 = .ok a) :
    (getConfigs cf none (some llh) c).1.data.get? cf.name = some ((c.data.get? cf.name).getD (.atom (cf.default.getD (.num 0)))) := by
  unfold getConfigs at h ⊢
  by_cases hh : c.data.has cf.name = true
  · obtain ⟨v, hv⟩ := (PyDict.mem_keys_iff_exists _ _).1 ((PyDict.has_iff _ _).1 hh)
    simp [hh, Cache.get, PyDict.getItem, hv, Cache.record]
  · have hn : c.data.get? cf.name = none := (has_false_iff _ _).1 (by simpa using hh)
    simp only [hh] at h ⊢
    cases hd : cf.default with
    | none => rw [hd] at h; simp [getDefault] at h
    | some x => simp [getDefault, Cache.set, PyDict.get?_set, hn]

theorem getConfigs_keeps (cf cf' : Conf) (hcf : cf.name = cf'.name → cf = cf') (llh : String) (c : Cache) :
    ((getConfigs cf' none (some llh) c).1.data.get? cf.name).getD (.atom (cf.default.getD (.num 0))) =
      (c.data.get? cf.name).getD (.atom (cf.default.getD (.num 0))) := by
  rcases getConfigs_cache cf' llh c with h | ⟨hn, a, ha, h⟩
  · rw [h]
  · rw [h, PyDict.get?_set]
    by_cases he : cf'.name = cf.name
    · obtain rfl := hcf he.symm
      simp [hn, ha]
    · rw [if_neg he]

theorem requiredParameter_ok (cf : Conf) (llh : String) (c : Cache) (x : Option Item)
    (h : (requiredParameter cf none (some llh) c).2 = .ok x) : ∃ a, (getConfigs cf none (some llh) c).2 = .ok a := by
  unfold requiredParameter at h
  generalize getConfigs cf none (some llh) c = g at *
  obtain ⟨c1, r⟩ := g
  cases r with
  | error e => cases h
  | ok a => exact ⟨a, rfl⟩

theorem readRequired_keeps (E : Env) (hopt : ∀ c c', (E.opt c).conf.name = (E.opt c').conf.name → (E.opt c).conf = (E.opt c').conf)
    (llh : String) (l : List Cfg) (c : Cache) (cfg : Cfg) :
    ((readRequired E llh l c).data.get? (E.opt cfg).conf.name).getD (.atom ((E.opt cfg).conf.default.getD (.num 0))) =
      (c.data.get? (E.opt cfg).conf.name).getD (.atom ((E.opt cfg).conf.default.getD (.num 0))) ∧
    (c.data.get? (E.opt cfg).conf.name ≠ none → (readRequired E llh l c).data.get? (E.opt cfg).conf.name ≠ none) := by
  induction l generalizing c with
  | nil => exact ⟨rfl, id⟩
  | cons x l ih =>
    unfold readRequired
    cases hk : (E.opt x).kind with
    | constant => exact ih c
    | map => exact ih c
    | sigma =>
      have h1 := getConfigs_keeps (E.opt cfg).conf (E.opt x).conf (hopt cfg x) llh c
      have h2 : c.data.get? (E.opt cfg).conf.name ≠ none →
          (getConfigs (E.opt x).conf none (some llh) c).1.data.get? (E.opt cfg).conf.name ≠ none := by
        intro hne
        rcases getConfigs_cache (E.opt x).conf llh c with h | ⟨_, a, _, h⟩
        · rw [h]; exact hne
        · rw [h, PyDict.get?_set]; split <;> simp [hne]
      rw [← requiredParameter_cache] at h1 h2
      simp only
      generalize requiredParameter (E.opt x).conf none (some llh) c = g at *
      obtain ⟨c1, r⟩ := g
      cases r with
      | error e => exact ⟨h1, h2⟩
      | ok a => exact ⟨(ih c1).1.trans h1, fun hne => (ih c1).2 (h2 hne)⟩

theorem readRequired_stores (E : Env) (hopt : ∀ c c', (E.opt c).conf.name = (E.opt c').conf.name → (E.opt c).conf = (E.opt c').conf)
    (llh : String) (l : List Cfg) (c : Cache)
    (hall : ∀ x ∈ l, (E.opt x).kind = .sigma → ∃ v, (requiredParameter (E.opt x).conf none (some llh) c).2 = .ok v)
    (cfg : Cfg) (hm : cfg ∈ l) (hk : (E.opt cfg).kind = .sigma) :
    (readRequired E llh l c).data.get? (E.opt cfg).conf.name =
      some ((c.data.get? (E.opt cfg).conf.name).getD (.atom ((E.opt cfg).conf.default.getD (.num 0)))) := by
  suffices hne : (readRequired E llh l c).data.get? (E.opt cfg).conf.name ≠ none by
    have h := (readRequired_keeps E hopt llh l c cfg).1
    obtain ⟨v, hv⟩ := Option.ne_none_iff_exists'.1 hne
    rw [hv] at h ⊢
    rw [← h]
    rfl
  induction l generalizing c with
  | nil => simp at hm
  | cons x l ih =>
    unfold readRequired
    have hnext : ∀ c1 : Cache, c1 = (requiredParameter (E.opt x).conf none (some llh) c).1 →
        ∀ y ∈ l, (E.opt y).kind = .sigma → ∃ v, (requiredParameter (E.opt y).conf none (some llh) c1).2 = .ok v := by
      rintro c1 rfl y hy hyk
      rw [requiredParameter_after _ _ (hopt y x)]
      exact hall y (by simp [hy]) hyk
    cases hkx : (E.opt x).kind with
    | constant =>
      refine ih c (fun y hy => hall y (by simp [hy])) ?_
      rcases List.mem_cons.1 hm with rfl | hm
      · rw [hk] at hkx; cases hkx
      · exact hm
    | map =>
      refine ih c (fun y hy => hall y (by simp [hy])) ?_
      rcases List.mem_cons.1 hm with rfl | hm
      · rw [hk] at hkx; cases hkx
      · exact hm
    | sigma =>
      obtain ⟨v, hv⟩ := hall x (by simp) hkx
      obtain ⟨a, ha⟩ := requiredParameter_ok _ _ _ _ hv
      have hst := getConfigs_stores _ _ _ _ ha
      rw [← requiredParameter_cache] at hst
      simp only
      generalize requiredParameter (E.opt x).conf none (some llh) c = g at *
      obtain ⟨c1, r⟩ := g
      simp only at hv
      subst hv
      simp only at hst ⊢
      rcases List.mem_cons.1 hm with rfl | hm
      · exact (readRequired_keeps E hopt llh l c1 cfg).2 (by rw [hst]; simp)
      · exact ih c1 (hnext c1 rfl) hm

theorem cfgLoop_required {required : Cfg → Res (Option String)} (cs : List Cfg) (nd nd' : List String)
    (h : cfgLoop required cs nd = (nd', .ok ())) : ∀ c ∈ cs, ∃ v, required c = .ok v := by
  induction cs generalizing nd with
  | nil => simp
  | cons c cs ih =>
    simp only [cfgLoop] at h
    intro x hx
    split at h
    · cases h
    · rename_i hr
      rcases List.mem_cons.1 hx with rfl | hx
      · exact ⟨_, hr⟩
      · exact ih _ h x hx
    · rename_i hr
      rcases List.mem_cons.1 hx with rfl | hx
      · exact ⟨_, hr⟩
      · exact ih _ h x hx

theorem needLoop_required {required : Cfg → Res (Option String)} (ps ws ws' : List Plugin) (nd nd' : List String)
    (h : needLoop required ps ws nd = ((ws', nd'), .ok ())) : ∀ p ∈ ps, ∀ c ∈ p.configs, ∃ v, required c = .ok v := by
  induction ps generalizing ws nd with
  | nil => simp
  | cons p ps ih =>
    simp only [needLoop] at h
    intro x hx
    split at h
    · cases h
    · rename_i hc
      rcases List.mem_cons.1 hx with rfl | hx
      · exact cfgLoop_required _ _ _ hc
      · exact ih _ _ h x hx

end Verif.Session
