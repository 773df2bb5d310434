/-
Helper lemmas for C106.
-/
import Verif.Spec.Contexts
import Verif.Lemmas.Register

namespace Verif.Llh
open Verif Comp

section
variable {K V : Type}

theorem has_eq_of_mem_iff {α β : Type} (d : PyDict String α) (e : PyDict String β) (n : String) (h : n ∈ d.keys ↔ n ∈ e.keys) : d.has n = e.has n := by
  rw [Bool.eq_iff_iff, PyDict.has_iff, PyDict.has_iff, h]

theorem mem_keys_set (d : PyDict String Nat) (k n : String) (v : Nat) : n ∈ (d.set k v).keys ↔ n ∈ d.keys ∨ n = k := by
  rw [PyDict.keys_set]
  split
  · constructor
    · exact .inl
    · rintro (h | rfl) <;> assumption
  · simp

/-- The new component in `registerSim`. -/
def newComp (llh : String) (a : SimArgs) : Comp := { name := a.comp, llhName := llh, rateName := a.comp ++ "_rate", registry := a.registry }

def newArgs (llh : String) (binsOn : List String) (a : SimArgs) : DeduceArgs :=
  { dataNames := binsOn ++ ["eff"], funcName := llh ++ "_" ++ a.comp ++ "_sim", required := a.required }

/-- What a registration does, without the code that keeps the compiled functions. -/
theorem registerSim_cases (llh : String) (binsOn : List String) (al : PyDict String String) (wrap : Comp → LComp K V)
    (hw : Portable wrap) (s : State K V) (a : SimArgs) :
    (∃ e, ∀ g, registerSim llh binsOn al wrap s g a = ((s, g), .error e)) ∨
    (∃ s', ∀ g, (llh ∈ g.cache.keys → registerSim llh binsOn al wrap s g a = ((s, g), .error .runtimeError)) ∧
      (llh ∉ g.cache.keys → ∃ g', registerSim llh binsOn al wrap s g a = ((s', g'), .ok ()) ∧ g'.cache = g.cache.set llh g.heap.length)) := by
  unfold registerSim
  by_cases hhas : s.components.has a.comp = true
  · left; exact ⟨.valueError, fun g => by simp [hhas]⟩
  · simp only [hhas, Bool.false_eq_true, if_false]
    cases hd : deduceDeps a.registry "batch_size" 1000 (outNames (binsOn ++ ["eff"]) false) [] with
    | error e => left; exact ⟨e, fun g => by simp [deduce, hd]⟩
    | ok deps =>
      cases hn : needLoop a.required (worksheet deps) [] (if a.comp ++ "_rate" = "" then [] else [a.comp ++ "_rate"]) with
      | mk wn r =>
        obtain ⟨ws, nd⟩ := wn
        cases r with
        | error e => left; exact ⟨e, fun g => by simp only [deduce, hd, hn, Bool.or_self]⟩
        | ok u =>
          right
          refine ⟨(register al s a.comp (.ok (wrap
            { name := a.comp, llhName := llh, rateName := a.comp ++ "_rate", registry := a.registry, forceNoEff := false,
              worksheet := ws, needed := nd, funcName := some (llh ++ "_" ++ a.comp ++ "_sim"),
              code := some (genCode a.comp llh ws (outNames (binsOn ++ ["eff"]) false) (llh ++ "_" ++ a.comp ++ "_sim") "batch_size"),
              simulate := some (genCode a.comp llh ws (outNames (binsOn ++ ["eff"]) false) (llh ++ "_" ++ a.comp ++ "_sim") "batch_size") }))).1, ?_⟩
          intro g
          constructor
          · intro hg
            have : g.cache.has llh = true := (PyDict.has_iff _ _).2 hg
            simp only [deduce, hd, hn, this, if_true, Bool.or_self]
          · intro hg
            have : g.cache.has llh = false := by
              rw [Bool.eq_false_iff]; exact fun h => hg ((PyDict.has_iff _ _).1 h)
            simp only [deduce, hd, hn, this, Bool.false_eq_true, if_false, Bool.or_self]
            unfold compile
            simp only [PyDict.get?_set_self]
            have hreg : ∀ c, register al s a.comp (.ok (wrap c)) = (⟨s.components.set a.comp (wrap c),
                al.foldl aliasNeeded (s.needed ++ (wrap c).needed.filter (fun x => x ∉ s.needed))⟩, .ok ()) := by
              intro c
              unfold register
              simp [hhas]
            simp only [hreg]
            simp only [Option.getD_some, genCode, List.getElem?_modify, List.getElem?_append_right (Nat.le_refl _), Nat.sub_self,
              List.getElem?_cons_zero, if_true, Option.map_eq_map, Option.map_some, PyDict.get?_set_self]
            have hc := hw
              { name := a.comp, llhName := llh, rateName := a.comp ++ "_rate", registry := a.registry, forceNoEff := false,
                worksheet := ws, needed := nd, funcName := some (llh ++ "_" ++ a.comp ++ "_sim"),
                code := some (genCode a.comp llh ws (outNames (binsOn ++ ["eff"]) false) (llh ++ "_" ++ a.comp ++ "_sim") "batch_size"),
                simulate := some (genCode a.comp llh ws (outNames (binsOn ++ ["eff"]) false) (llh ++ "_" ++ a.comp ++ "_sim") "batch_size") }
              (some (g.heap.length, genCode a.comp llh ws (outNames (binsOn ++ ["eff"]) false) (llh ++ "_" ++ a.comp ++ "_sim") "batch_size"))
            simp only [genCode] at hc
            rw [hc]
            exact ⟨_, rfl, rfl⟩

/-- Registrations in two sessions that agree on whether the name is taken. -/
theorem regStep_same (l : LSpec K V) (hw : Portable l.wrap) (s : State K V) (r : Reg K V) (g g' : FnCache)
    (h : l.llh ∈ g.cache.keys ↔ l.llh ∈ g'.cache.keys) :
    (regStep l.llh l.binsOn l.al l.wrap (s, g) r).1.1 = (regStep l.llh l.binsOn l.al l.wrap (s, g') r).1.1 ∧
    (regStep l.llh l.binsOn l.al l.wrap (s, g) r).2 = (regStep l.llh l.binsOn l.al l.wrap (s, g') r).2 ∧
    (l.llh ∈ (regStep l.llh l.binsOn l.al l.wrap (s, g) r).1.2.cache.keys ↔
      l.llh ∈ (regStep l.llh l.binsOn l.al l.wrap (s, g') r).1.2.cache.keys) := by
  cases r with
  | fixed n b => exact ⟨rfl, rfl, h⟩
  | sim a =>
    simp only [regStep]
    rcases registerSim_cases l.llh l.binsOn l.al l.wrap hw s a with ⟨e, he⟩ | ⟨s', hs⟩
    · rw [he, he]; exact ⟨rfl, rfl, h⟩
    · by_cases hg : l.llh ∈ g.cache.keys
      · rw [(hs g).1 hg, (hs g').1 (h.1 hg)]; exact ⟨rfl, rfl, h⟩
      · obtain ⟨g1, h1, h2⟩ := (hs g).2 hg
        obtain ⟨g2, h3, h4⟩ := (hs g').2 (fun x => hg (h.2 x))
        rw [h1, h3]
        refine ⟨rfl, rfl, ?_⟩
        simp only [h2, h4, mem_keys_set, or_true]

/-- Which names are taken by a registration. -/
theorem regStep_keys (l : LSpec K V) (hw : Portable l.wrap) (s : State K V) (r : Reg K V) (g : FnCache) (n : String) :
    (n ∈ g.cache.keys → n ∈ (regStep l.llh l.binsOn l.al l.wrap (s, g) r).1.2.cache.keys) ∧
    (n ∈ (regStep l.llh l.binsOn l.al l.wrap (s, g) r).1.2.cache.keys → n ∈ g.cache.keys ∨ (n = l.llh ∧ ∃ a, r = .sim a)) := by
  cases r with
  | fixed m b => exact ⟨id, .inl⟩
  | sim a =>
    simp only [regStep]
    rcases registerSim_cases l.llh l.binsOn l.al l.wrap hw s a with ⟨e, he⟩ | ⟨s', hs⟩
    · rw [he]; exact ⟨id, .inl⟩
    · by_cases hg : l.llh ∈ g.cache.keys
      · rw [(hs g).1 hg]; exact ⟨id, .inl⟩
      · obtain ⟨g1, h1, h2⟩ := (hs g).2 hg
        rw [h1]
        simp only [h2, mem_keys_set]
        exact ⟨.inl, fun h => h.imp_right (fun x => ⟨x, a, rfl⟩)⟩

theorem buildParts_same (l : LSpec K V) (hw : Portable l.wrap) (ps : List (Res (Reg K V))) (s : State K V) (g g' : FnCache)
    (h : l.llh ∈ g.cache.keys ↔ l.llh ∈ g'.cache.keys) :
    (buildParts l ps (s, g)).1.1 = (buildParts l ps (s, g')).1.1 ∧ (buildParts l ps (s, g)).2 = (buildParts l ps (s, g')).2 ∧
    (l.llh ∈ (buildParts l ps (s, g)).1.2.cache.keys ↔ l.llh ∈ (buildParts l ps (s, g')).1.2.cache.keys) := by
  induction ps generalizing s g g' with
  | nil => exact ⟨rfl, rfl, h⟩
  | cons p ps ih =>
    cases p with
    | error e => exact ⟨rfl, rfl, h⟩
    | ok r =>
      obtain ⟨h1, h2, h3⟩ := regStep_same l hw s r g g' h
      simp only [buildParts]
      generalize regStep l.llh l.binsOn l.al l.wrap (s, g) r = x at *
      generalize regStep l.llh l.binsOn l.al l.wrap (s, g') r = y at *
      obtain ⟨⟨s1, g1⟩, r1⟩ := x
      obtain ⟨⟨s2, g2⟩, r2⟩ := y
      simp only at h1 h2 h3
      subst h1 h2
      cases r1 with
      | error e => exact ⟨rfl, rfl, h3⟩
      | ok u => exact ih s1 g1 g2 h3

theorem buildParts_keys (l : LSpec K V) (hw : Portable l.wrap) (ps : List (Res (Reg K V))) (s : State K V) (g : FnCache) (n : String) :
    (n ∈ g.cache.keys → n ∈ (buildParts l ps (s, g)).1.2.cache.keys) ∧
    (n ∈ (buildParts l ps (s, g)).1.2.cache.keys → n ∈ g.cache.keys ∨ (n = l.llh ∧ ∃ a, Except.ok (Reg.sim a) ∈ ps)) := by
  induction ps generalizing s g with
  | nil => exact ⟨id, .inl⟩
  | cons p ps ih =>
    cases p with
    | error e => exact ⟨id, .inl⟩
    | ok r =>
      obtain ⟨h1, h2⟩ := regStep_keys l hw s r g n
      simp only [buildParts]
      generalize regStep l.llh l.binsOn l.al l.wrap (s, g) r = x at *
      obtain ⟨⟨s1, g1⟩, r1⟩ := x
      have h2' : n ∈ g1.cache.keys → n ∈ g.cache.keys ∨ (n = l.llh ∧ ∃ a, Except.ok (Reg.sim a) ∈ Except.ok r :: ps) := by
        intro h
        rcases h2 h with h | ⟨h, a, rfl⟩
        · exact .inl h
        · exact .inr ⟨h, a, by simp⟩
      cases r1 with
      | error e => exact ⟨h1, h2'⟩
      | ok u =>
        refine ⟨fun h => (ih s1 g1).1 (h1 h), ?_⟩
        intro h
        rcases (ih s1 g1).2 h with h | ⟨h, a, ha⟩
        · exact h2' h
        · exact .inr ⟨h, a, List.mem_cons_of_mem _ ha⟩

/-- A likelihood that was completed has taken its name if it simulates. -/
theorem buildParts_takes (l : LSpec K V) (hw : Portable l.wrap) (ps : List (Res (Reg K V))) (s : State K V) (g : FnCache)
    (hok : (buildParts l ps (s, g)).2 = .ok ()) (a : SimArgs) (ha : Except.ok (Reg.sim a) ∈ ps) :
    l.llh ∉ g.cache.keys ∧ l.llh ∈ (buildParts l ps (s, g)).1.2.cache.keys := by
  induction ps generalizing s g with
  | nil => simp at ha
  | cons p ps ih =>
    cases p with
    | error e => cases hok
    | ok r =>
      have hk := regStep_keys l hw s r g l.llh
      simp only [buildParts] at hok ⊢
      cases hx : regStep l.llh l.binsOn l.al l.wrap (s, g) r with
      | mk sg r1 =>
        obtain ⟨s1, g1⟩ := sg
        rw [hx] at hok hk
        cases r1 with
        | error e => cases hok
        | ok u =>
          simp only at hok ⊢
          have hkp := (buildParts_keys l hw ps s1 g1 l.llh).1
          rcases List.mem_cons.1 ha with h | h
          · cases h
            simp only [regStep] at hx
            rcases registerSim_cases l.llh l.binsOn l.al l.wrap hw s a with ⟨e, he⟩ | ⟨s', hs⟩
            · rw [he] at hx; cases hx
            · by_cases hg : l.llh ∈ g.cache.keys
              · rw [(hs g).1 hg] at hx; cases hx
              · obtain ⟨g2, h1, h2⟩ := (hs g).2 hg
                rw [h1] at hx
                cases hx
                exact ⟨hg, hkp (by rw [h2, mem_keys_set]; exact .inr rfl)⟩
          · obtain ⟨h1, h2⟩ := ih s1 g1 hok h
            exact ⟨fun x => h1 (hk.1 x), h2⟩

/-- A likelihood that was completed in one session is refused in a session where its name is taken; one without simulated components
is the same in both. -/
theorem buildParts_again (l : LSpec K V) (hw : Portable l.wrap) (ps : List (Res (Reg K V))) (s : State K V) (g g' : FnCache)
    (hok : (buildParts l ps (s, g)).2 = .ok ()) :
    ((∃ a, Except.ok (Reg.sim a) ∈ ps) → l.llh ∈ g'.cache.keys → (buildParts l ps (s, g')).2 = .error .runtimeError) ∧
    (¬ (∃ a, Except.ok (Reg.sim a) ∈ ps) →
      buildParts l ps (s, g') = (((buildParts l ps (s, g)).1.1, g'), .ok ()) ∧ (buildParts l ps (s, g)).1.2 = g) := by
  induction ps generalizing s g g' with
  | nil => exact ⟨by rintro ⟨a, h⟩; simp at h, fun _ => ⟨rfl, rfl⟩⟩
  | cons p ps ih =>
    cases p with
    | error e => cases hok
    | ok r =>
      simp only [buildParts] at hok ⊢
      cases r with
      | fixed n b =>
        simp only [regStep] at hok ⊢
        generalize register l.al s n b = x at *
        obtain ⟨s1, r1⟩ := x
        cases r1 with
        | error e => cases hok
        | ok u =>
          simp only at hok ⊢
          obtain ⟨h1, h2⟩ := ih s1 g g' hok
          refine ⟨?_, ?_⟩
          · rintro ⟨a, ha⟩
            refine h1 ⟨a, ?_⟩
            simpa using ha
          · intro hn
            exact h2 (fun ⟨a, ha⟩ => hn ⟨a, List.mem_cons_of_mem _ ha⟩)
      | sim a =>
        refine ⟨?_, fun hn => absurd ⟨a, by simp⟩ hn⟩
        intro _ hg'
        simp only [regStep] at hok ⊢
        rcases registerSim_cases l.llh l.binsOn l.al l.wrap hw s a with ⟨e, he⟩ | ⟨s', hs⟩
        · rw [he] at hok; cases hok
        · rw [(hs g').1 hg']

variable (ls : List (LSpec K V))

theorem buildAll_same (hw : ∀ l ∈ ls, Portable l.wrap) (b : PyDict String (State K V)) (g g' : FnCache)
    (h : ∀ l ∈ ls, l.llh ∈ g.cache.keys ↔ l.llh ∈ g'.cache.keys) :
    (buildAll ls (b, g)).1.1 = (buildAll ls (b, g')).1.1 ∧ (buildAll ls (b, g)).2 = (buildAll ls (b, g')).2 := by
  induction ls generalizing b g g' with
  | nil => exact ⟨rfl, rfl⟩
  | cons l ls ih =>
    obtain ⟨h1, h2, h3⟩ := buildParts_same l (hw l (by simp)) l.parts ⟨[], []⟩ g g' (h l (by simp))
    have hk := fun n => buildParts_keys l (hw l (by simp)) l.parts ⟨[], []⟩ g n
    have hk' := fun n => buildParts_keys l (hw l (by simp)) l.parts ⟨[], []⟩ g' n
    simp only [buildAll]
    split
    · exact ⟨rfl, rfl⟩
    · cases l.made with
      | error e => exact ⟨rfl, rfl⟩
      | ok u =>
        simp only
        generalize buildParts l l.parts (⟨[], []⟩, g) = x at *
        generalize buildParts l l.parts (⟨[], []⟩, g') = y at *
        obtain ⟨⟨s1, g1⟩, r1⟩ := x
        obtain ⟨⟨s2, g2⟩, r2⟩ := y
        simp only at h1 h2 h3 hk hk'
        subst h1 h2
        cases r1 with
        | error e => exact ⟨rfl, rfl⟩
        | ok u =>
          refine ih (fun l' hl' => hw l' (List.mem_cons_of_mem _ hl')) _ g1 g2 ?_
          intro l' hl'
          by_cases hn : l'.llh = l.llh
          · rw [hn]; exact h3
          · have h0 := h l' (List.mem_cons_of_mem _ hl')
            constructor
            · intro hx
              rcases (hk _).2 hx with hx | ⟨hx, _⟩
              · exact (hk' _).1 (h0.1 hx)
              · exact absurd hx hn
            · intro hx
              rcases (hk' _).2 hx with hx | ⟨hx, _⟩
              · exact (hk _).1 (h0.2 hx)
              · exact absurd hx hn

theorem buildAll_keys (hw : ∀ l ∈ ls, Portable l.wrap) (b : PyDict String (State K V)) (g : FnCache) (n : String) :
    (n ∈ g.cache.keys → n ∈ (buildAll ls (b, g)).1.2.cache.keys) ∧
    (n ∈ (buildAll ls (b, g)).1.2.cache.keys → n ∈ g.cache.keys ∨ ∃ l ∈ ls, l.llh = n ∧ l.Simulates) := by
  induction ls generalizing b g with
  | nil => exact ⟨id, .inl⟩
  | cons l ls ih =>
    have hk := buildParts_keys l (hw l (by simp)) l.parts ⟨[], []⟩ g n
    simp only [buildAll]
    split
    · exact ⟨id, .inl⟩
    · cases l.made with
      | error e => exact ⟨id, .inl⟩
      | ok u =>
        simp only
        generalize buildParts l l.parts (⟨[], []⟩, g) = x at *
        obtain ⟨⟨s1, g1⟩, r1⟩ := x
        have h2 : n ∈ g1.cache.keys → n ∈ g.cache.keys ∨ ∃ l' ∈ l :: ls, l'.llh = n ∧ l'.Simulates := by
          intro h
          rcases hk.2 h with h | ⟨h, a, ha⟩
          · exact .inl h
          · exact .inr ⟨l, by simp, h.symm, a, ha⟩
        cases r1 with
        | error e => exact ⟨hk.1, h2⟩
        | ok u =>
          have ih' := ih (fun l' hl' => hw l' (List.mem_cons_of_mem _ hl')) (b.set l.llh s1) g1
          refine ⟨fun h => ih'.1 (hk.1 h), ?_⟩
          intro h
          rcases ih'.2 h with h | ⟨l', h1, h3⟩
          · exact h2 h
          · exact .inr ⟨l', List.mem_cons_of_mem _ h1, h3⟩

theorem buildAll_takes (hw : ∀ l ∈ ls, Portable l.wrap) (b : PyDict String (State K V)) (g : FnCache)
    (hok : (buildAll ls (b, g)).2 = .ok ()) (l : LSpec K V) (hl : l ∈ ls) (hs : l.Simulates) :
    l.llh ∉ g.cache.keys ∧ l.llh ∈ (buildAll ls (b, g)).1.2.cache.keys := by
  induction ls generalizing b g with
  | nil => simp at hl
  | cons l0 ls ih =>
    have hw' : ∀ l' ∈ ls, Portable l'.wrap := fun l' hl' => hw l' (List.mem_cons_of_mem _ hl')
    have hk := buildParts_keys l0 (hw l0 (by simp)) l0.parts ⟨[], []⟩ g l.llh
    simp only [buildAll] at hok ⊢
    split at hok
    · cases hok
    · rename_i hb
      rw [if_neg hb]
      cases hm : l0.made with
      | error e => rw [hm] at hok; cases hok
      | ok u =>
        rw [hm] at hok
        simp only at hok ⊢
        have ht := fun h a ha => buildParts_takes l0 (hw l0 (by simp)) l0.parts ⟨[], []⟩ g h a ha
        generalize buildParts l0 l0.parts (⟨[], []⟩, g) = x at *
        obtain ⟨⟨s1, g1⟩, r1⟩ := x
        cases r1 with
        | error e => cases hok
        | ok u =>
          simp only at hok ⊢
          rcases List.mem_cons.1 hl with rfl | hl
          · obtain ⟨a, ha⟩ := hs
            obtain ⟨h1, h2⟩ := ht rfl a ha
            exact ⟨h1, (buildAll_keys ls hw' _ g1 _).1 h2⟩
          · obtain ⟨h1, h2⟩ := ih hw' _ g1 hok hl
            exact ⟨fun h => h1 (hk.1 h), h2⟩

theorem buildAll_again (hw : ∀ l ∈ ls, Portable l.wrap) (b : PyDict String (State K V)) (g g' : FnCache)
    (hok : (buildAll ls (b, g)).2 = .ok ()) (hs : ∃ l ∈ ls, l.Simulates) (ht : ∀ l ∈ ls, l.Simulates → l.llh ∈ g'.cache.keys) :
    (buildAll ls (b, g')).2 = .error .runtimeError := by
  induction ls generalizing b g with
  | nil => obtain ⟨l, h, _⟩ := hs; simp at h
  | cons l ls ih =>
    have hag := fun h => buildParts_again l (hw l (by simp)) l.parts ⟨[], []⟩ g g' h
    simp only [buildAll] at hok ⊢
    split at hok
    · cases hok
    · rename_i hb
      rw [if_neg hb]
      cases hm : l.made with
      | error e => rw [hm] at hok; cases hok
      | ok u =>
        rw [hm] at hok
        simp only at hok ⊢
        generalize buildParts l l.parts (⟨[], []⟩, g) = x at *
        obtain ⟨⟨s1, g1⟩, r1⟩ := x
        cases r1 with
        | error e => cases hok
        | ok u =>
          obtain ⟨h1, h2⟩ := hag rfl
          simp only at hok h1 h2
          by_cases hl : ∃ a, Except.ok (Reg.sim a) ∈ l.parts
          · have h3 := h1 hl (ht l (by simp) hl)
            generalize buildParts l l.parts (⟨[], []⟩, g') = y at *
            obtain ⟨⟨s2, g2⟩, r2⟩ := y
            simp only at h3
            subst h3
            rfl
          · obtain ⟨h3, rfl⟩ := h2 hl
            rw [h3]
            refine ih (fun l' hl' => hw l' (List.mem_cons_of_mem _ hl')) _ g1 hok ?_ (fun l' hl' => ht l' (List.mem_cons_of_mem _ hl'))
            obtain ⟨l', h4, h5⟩ := hs
            rcases List.mem_cons.1 h4 with rfl | h4
            · exact absurd h5 hl
            · exact ⟨l', h4, h5⟩

/-- Without simulated components the function cache is neither read nor written. -/
theorem buildParts_fixed (l : LSpec K V) (ps : List (Res (Reg K V))) (hn : ¬ ∃ a, Except.ok (Reg.sim a) ∈ ps) (s : State K V) (g g' : FnCache) :
    (buildParts l ps (s, g)).1.2 = g ∧ (buildParts l ps (s, g)).1.1 = (buildParts l ps (s, g')).1.1 ∧
      (buildParts l ps (s, g)).2 = (buildParts l ps (s, g')).2 := by
  induction ps generalizing s with
  | nil => exact ⟨rfl, rfl, rfl⟩
  | cons p ps ih =>
    cases p with
    | error e => exact ⟨rfl, rfl, rfl⟩
    | ok r =>
      cases r with
      | sim a => exact absurd ⟨a, by simp⟩ hn
      | fixed n b =>
        simp only [buildParts, regStep]
        generalize register l.al s n b = x
        obtain ⟨s1, r1⟩ := x
        cases r1 with
        | error e => exact ⟨rfl, rfl, rfl⟩
        | ok u => exact ih (fun ⟨a, ha⟩ => hn ⟨a, List.mem_cons_of_mem _ ha⟩) s1

theorem buildAll_fixed (hn : ∀ l ∈ ls, ¬ l.Simulates) (b : PyDict String (State K V)) (g g' : FnCache) :
    (buildAll ls (b, g)).1.2 = g ∧ (buildAll ls (b, g)).1.1 = (buildAll ls (b, g')).1.1 ∧ (buildAll ls (b, g)).2 = (buildAll ls (b, g')).2 := by
  induction ls generalizing b with
  | nil => exact ⟨rfl, rfl, rfl⟩
  | cons l ls ih =>
    obtain ⟨h1, h2, h3⟩ := buildParts_fixed l l.parts (hn l (by simp)) ⟨[], []⟩ g g'
    obtain ⟨h4, _, _⟩ := buildParts_fixed l l.parts (hn l (by simp)) ⟨[], []⟩ g' g
    simp only [buildAll]
    split
    · exact ⟨rfl, rfl, rfl⟩
    · cases l.made with
      | error e => exact ⟨rfl, rfl, rfl⟩
      | ok u =>
        simp only
        generalize buildParts l l.parts (⟨[], []⟩, g) = x at *
        generalize buildParts l l.parts (⟨[], []⟩, g') = y at *
        obtain ⟨⟨s1, g1⟩, r1⟩ := x
        obtain ⟨⟨s2, g2⟩, r2⟩ := y
        simp only at h1 h2 h3 h4
        subst h1 h2 h3 h4
        cases r1 with
        | error e => exact ⟨rfl, rfl, rfl⟩
        | ok u => exact ih (fun l' hl' => hn l' (List.mem_cons_of_mem _ hl')) _

theorem buildAll_append (l1 l2 : List (LSpec K V)) (bg : PyDict String (State K V) × FnCache) (hok : (buildAll l1 bg).2 = .ok ()) :
    buildAll (l1 ++ l2) bg = buildAll l2 (buildAll l1 bg).1 := by
  induction l1 generalizing bg with
  | nil => rfl
  | cons l l1 ih =>
    obtain ⟨b, g⟩ := bg
    rw [List.cons_append]
    simp only [buildAll] at hok ⊢
    split at hok
    · cases hok
    · rename_i hb
      simp only [if_neg hb]
      cases hm : l.made with
      | error e => rw [hm] at hok; cases hok
      | ok u =>
        rw [hm] at hok
        simp only at hok ⊢
        generalize buildParts l l.parts (⟨[], []⟩, g) = x at *
        obtain ⟨⟨s1, g1⟩, r1⟩ := x
        cases r1 with
        | error e => cases hok
        | ok u => exact ih _ hok

theorem sessStep_keys (s : Sess K V) (o : SOp K V) (ho : o ≠ .clear) (hw : ∀ c, o = .make c → c.Portable) (n : String) :
    (n ∈ s.cache.cache.keys → n ∈ (sessStep s o).1.cache.cache.keys) ∧
    (n ∈ (sessStep s o).1.cache.cache.keys → n ∈ s.cache.cache.keys ∨ ∃ c, o = .make c ∧ ∃ l ∈ c.likelihoods, l.llh = n ∧ l.Simulates) := by
  cases o with
  | clear => exact absurd rfl ho
  | make c =>
    have hk := buildAll_keys c.likelihoods (hw c rfl) [] s.cache n
    simp only [sessStep, makeContext]
    cases c.before with
    | error e => exact ⟨id, .inl⟩
    | ok u =>
      simp only
      generalize buildAll c.likelihoods ([], s.cache) = x at *
      obtain ⟨⟨b1, g1⟩, r1⟩ := x
      have : n ∈ g1.cache.keys → n ∈ s.cache.cache.keys ∨ ∃ c', SOp.make c = .make c' ∧ ∃ l ∈ c'.likelihoods, l.llh = n ∧ l.Simulates :=
        fun h => (hk.2 h).imp_right (fun h => ⟨c, rfl, h⟩)
      cases r1 <;> exact ⟨hk.1, this⟩

theorem sessRun_keys (s : Sess K V) (ops : List (SOp K V)) (ho : SOp.clear ∉ ops) (hw : ∀ c, SOp.make c ∈ ops → c.Portable) (n : String) :
    (n ∈ s.cache.cache.keys → n ∈ (sessRun s ops).cache.cache.keys) ∧
    (n ∈ (sessRun s ops).cache.cache.keys → n ∈ s.cache.cache.keys ∨ ∃ c, SOp.make c ∈ ops ∧ ∃ l ∈ c.likelihoods, l.llh = n ∧ l.Simulates) := by
  unfold sessRun
  induction ops generalizing s with
  | nil => exact ⟨id, .inl⟩
  | cons o ops ih =>
    have h1 := sessStep_keys s o (fun e => ho (by simp [e])) (fun c e => hw c (by simp [e])) n
    have h2 := ih (sessStep s o).1 (fun e => ho (List.mem_cons_of_mem _ e)) (fun c e => hw c (List.mem_cons_of_mem _ e))
    rw [List.foldl_cons]
    refine ⟨fun h => h2.1 (h1.1 h), fun h => ?_⟩
    rcases h2.2 h with h | ⟨c, h3, h4⟩
    · rcases h1.2 h with h | ⟨c, rfl, h4⟩
      · exact .inl h
      · exact .inr ⟨c, by simp, h4⟩
    · exact .inr ⟨c, List.mem_cons_of_mem _ h3, h4⟩

/-! ### What a context that was made holds -/

theorem register_made {al : PyDict String String} {s s' : State K V} {n : String} {b : Res (LComp K V)}
    (h : register al s n b = (s', .ok ())) : s'.components.keys = s.components.keys ++ [n] := by
  unfold register at h
  split at h
  · cases h
  · rename_i hh
    cases b with
    | error e => cases h
    | ok c =>
      cases h
      have : n ∉ s.components.keys := fun hc => hh ((PyDict.has_iff _ _).2 hc)
      simp [PyDict.keys_set, this]

theorem regStep_made {l : LSpec K V} {sg sg' : State K V × FnCache} {r : Reg K V}
    (h : regStep l.llh l.binsOn l.al l.wrap sg r = (sg', .ok ())) : sg'.1.components.keys = sg.1.components.keys ++ [r.comp] := by
  cases r with
  | fixed n b =>
    simp only [regStep] at h
    obtain ⟨h1, h2⟩ := Prod.mk.injEq _ _ _ _ ▸ h
    rw [← h1]
    exact register_made (Prod.ext rfl h2)
  | sim a =>
    simp only [regStep, registerSim] at h
    split at h
    · cases h
    · split at h
      · cases h
      · split at h
        · cases h
        · obtain ⟨h1, h2⟩ := Prod.mk.injEq _ _ _ _ ▸ h
          rw [← h1]
          exact register_made (Prod.ext rfl h2)

theorem buildParts_made {l : LSpec K V} (ps : List (Res (Reg K V))) (sg sg' : State K V × FnCache)
    (h : buildParts l ps sg = (sg', .ok ())) :
    ∃ rs : List (Reg K V), ps = rs.map .ok ∧ sg'.1.components.keys = sg.1.components.keys ++ rs.map Reg.comp := by
  induction ps generalizing sg with
  | nil => cases h; exact ⟨[], rfl, by simp⟩
  | cons p ps ih =>
    cases p with
    | error e => cases h
    | ok r =>
      rw [buildParts] at h
      cases hx : regStep l.llh l.binsOn l.al l.wrap sg r with
      | mk sg1 r1 =>
        rw [hx] at h
        cases r1 with
        | error e => cases h
        | ok u =>
          obtain ⟨rs, h1, h2⟩ := ih _ h
          exact ⟨r :: rs, by simp [h1], by rw [h2, regStep_made hx]; simp⟩

theorem buildAll_made (ls : List (LSpec K V)) (b b' : PyDict String (State K V)) (g g' : FnCache) (hb : b.keys.Nodup)
    (h : buildAll ls (b, g) = ((b', g'), .ok ())) :
    b'.keys = b.keys ++ ls.map LSpec.llh ∧ b'.keys.Nodup ∧ (∀ l ∈ ls, l.made = .ok ()) ∧
    (∀ n, n ∈ b.keys → b'.get? n = b.get? n) ∧
    ∀ l ∈ ls, ∃ (st : State K V) (rs : List (Reg K V)), b'.get? l.llh = some st ∧ l.parts = rs.map .ok ∧ st.components.keys = rs.map Reg.comp := by
  induction ls generalizing b g with
  | nil => cases h; exact ⟨by simp, hb, by simp, fun _ _ => rfl, by simp⟩
  | cons l ls ih =>
    rw [buildAll] at h
    split at h
    · cases h
    · rename_i hh
      have hn : l.llh ∉ b.keys := fun hc => hh ((PyDict.has_iff _ _).2 hc)
      cases hm : l.made with
      | error e => rw [hm] at h; cases h
      | ok u =>
        rw [hm] at h
        cases hx : buildParts l l.parts (⟨[], []⟩, g) with
        | mk sg r =>
          obtain ⟨st, g1⟩ := sg
          simp only [hx] at h
          cases r with
          | error e => cases h
          | ok u =>
            obtain ⟨rs, hr, hk⟩ := buildParts_made _ _ _ hx
            have hks : (b.set l.llh st).keys = b.keys ++ [l.llh] := by simp [PyDict.keys_set, hn]
            obtain ⟨h1, h2, h3, h4, h5⟩ := ih (b.set l.llh st) g1
              (by rw [hks]; exact List.nodup_append.2 ⟨hb, by simp, by
                    intro a ha c hc; simp at hc; subst hc; rintro rfl; exact hn ha⟩) h
            refine ⟨by rw [h1, hks]; simp, h2, ?_, ?_, ?_⟩
            · intro x hx'
              rcases List.mem_cons.1 hx' with rfl | hx'
              · exact hm
              · exact h3 x hx'
            · intro n hnb
              rw [h4 n (by rw [hks]; simp [hnb])]
              exact PyDict.get?_set_ne _ _ (by rintro rfl; exact hn hnb)
            · intro x hx'
              rcases List.mem_cons.1 hx' with rfl | hx'
              · refine ⟨st, rs, ?_, hr, by simpa [PyDict.keys] using hk⟩
                rw [h4 _ (by rw [hks]; simp)]
                simp [PyDict.get?_set]
              · exact h5 x hx'

end
end Verif.Llh
