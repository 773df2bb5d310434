/-
Property theorems C74: how many simulated components a likelihood can hold.
-/
import Verif.Lemmas.Register
import Verif.Props.Component

namespace Verif.Llh
open Verif Comp

section
variable {K V : Type}

/-- **C74 does not hold.** Whatever components are registered in a likelihood, in whatever order and however often, at most one
registration of a simulated component succeeds: the second one finds the name of the likelihood in the function cache.  The
components registered so far stay. -/
theorem C74_at_most_one_simulated (llh : String) (binsOn : List String) (al : PyDict String String) (wrap : Comp → LComp K V)
    (s : State K V) (g : FnCache) (rs : List (Reg K V)) :
    ((succeeded llh binsOn al wrap rs (s, g)).filter Reg.isSim).length ≤ 1 := by
  have key : ∀ (rs : List (Reg K V)) (s : State K V) (g : FnCache), llh ∈ g.cache.keys →
      (succeeded llh binsOn al wrap rs (s, g)).filter Reg.isSim = [] := by
    intro rs
    induction rs with
    | nil => intros; rfl
    | cons r rs ih =>
      intro s g hg
      simp only [succeeded, List.filter_append, List.append_eq_nil_iff]
      cases r with
      | sim a =>
        obtain ⟨h1, h2, h3⟩ := (regStep_sim llh binsOn al wrap s g a).1 hg
        simp only [regStep]
        refine ⟨?_, ih _ _ h1⟩
        split
        · rename_i h; exact absurd h h2
        · rfl
      | fixed n b =>
        refine ⟨?_, ih _ _ hg⟩
        split <;> simp [Reg.isSim]
  induction rs generalizing s g with
  | nil => simp [succeeded]
  | cons r rs ih =>
    simp only [succeeded, List.filter_append, List.length_append]
    cases r with
    | sim a =>
      simp only [regStep]
      cases hr : (registerSim llh binsOn al wrap s g a).2 with
      | error e => simpa using ih _ _
      | ok u =>
        have := key rs (registerSim llh binsOn al wrap s g a).1.1 _ ((regStep_sim llh binsOn al wrap s g a).2 hr)
        rw [this]
        simp only [List.length_nil, Nat.add_zero]
        exact List.length_filter_le _ _
    | fixed n b =>
      have h2 : (List.filter Reg.isSim (succeeded llh binsOn al wrap rs
          (regStep llh binsOn al wrap (s, g) (Reg.fixed n b)).1)).length ≤ 1 := ih _ _
      cases hr : (regStep llh binsOn al wrap (s, g) (Reg.fixed n b)).2 with
      | error e => simpa using h2
      | ok u => simpa [Reg.isSim] using h2

/-- **C74 does not hold.** The second of two simulated components of a likelihood, although it can be simulated by itself, is
refused with RuntimeError, and nothing is changed. -/
theorem C74_second_refused (llh : String) (binsOn : List String) (al : PyDict String String) (wrap : Comp → LComp K V)
    (s : State K V) (g : FnCache) (a : SimArgs) (hcache : llh ∈ g.cache.keys) (hnew : s.components.has a.comp = false)
    (halone : (registerSim llh binsOn al wrap s {} a).2 = .ok ()) :
    registerSim llh binsOn al wrap s g a = ((s, g), .error .runtimeError) := by
  have hh : g.cache.has llh = true := (PyDict.has_iff _ _).2 hcache
  unfold registerSim at halone ⊢
  simp only [hnew, Bool.false_eq_true, if_false] at halone ⊢
  generalize hc0 : ({ name := a.comp, llhName := llh, rateName := a.comp ++ "_rate", registry := a.registry } : Comp) = c0 at *
  generalize ha : (DeduceArgs.mk (binsOn ++ ["eff"]) (llh ++ "_" ++ a.comp ++ "_sim") _ _ a.required _) = a0 at *
  have hl : c0.llhName = llh := by rw [← hc0]
  have hok : ∃ c' g', deduce c0 {} a0 = ((c', g'), .ok ()) := by
    generalize deduce c0 {} a0 = x at halone
    obtain ⟨⟨c', g'⟩, r⟩ := x
    cases r with
    | error e => simp at halone
    | ok u => exact ⟨c', g', rfl⟩
  obtain ⟨c', g', hd⟩ := hok
  obtain ⟨deps, nd, h1, h2, _, _, _⟩ := deduce_ok_iff hd
  have : (deduce c0 g a0).2 = .error .runtimeError ∧ (deduce c0 g a0).1.2 = g := by
    unfold deduce
    simp only [h1, h2, hl, hh, if_true, and_self]
  generalize deduce c0 g a0 = x at this ⊢
  obtain ⟨⟨c2, g2⟩, r⟩ := x
  obtain ⟨rfl, rfl⟩ := this
  rfl

/-- **C74 (same name).** A second component under a name in use is refused with ValueError, before anything is compiled: neither
the likelihood nor the cache of compiled functions changes. -/
theorem C74_duplicate_refused (llh : String) (binsOn : List String) (al : PyDict String String) (wrap : Comp → LComp K V)
    (s : State K V) (g : FnCache) (a : SimArgs) (h : a.comp ∈ s.components.keys) :
    registerSim llh binsOn al wrap s g a = ((s, g), .error .valueError) := by
  unfold registerSim
  rw [if_pos ((PyDict.has_iff _ _).2 h)]

/-- **C74 (failure).** A registration that raises leaves the components and the needed parameters of the likelihood as they were. -/
theorem C74_failure_keeps_likelihood (llh : String) (binsOn : List String) (al : PyDict String String) (wrap : Comp → LComp K V)
    (s s' : State K V) (g g' : FnCache) (a : SimArgs) (e : PyErr)
    (h : registerSim llh binsOn al wrap s g a = ((s', g'), .error e)) : s' = s := by
  unfold registerSim at h
  split at h
  · cases h; rfl
  split at h
  · cases h; rfl
  split at h
  · cases h; rfl
  rename_i hn _ _ _ _ _ _ _ _
  simp only [register, hn, Bool.false_eq_true, if_false, Prod.mk.injEq, reduceCtorEq, and_false] at h

/-- What does hold: the first simulated component of a likelihood is registered whenever it can be deduced, next to any number
of fixed ones. -/
theorem C74_first_accepted_partial (llh : String) (binsOn : List String) (al : PyDict String String) (wrap : Comp → LComp K V)
    (s : State K V) (g : FnCache) (a : SimArgs) (hcache : llh ∉ g.cache.keys) (hnew : s.components.has a.comp = false)
    (halone : (registerSim llh binsOn al wrap s {} a).2 = .ok ()) :
    (registerSim llh binsOn al wrap s g a).2 = .ok () ∧
      (registerSim llh binsOn al wrap s g a).1.1.components.keys = s.components.keys ++ [a.comp] := by
  have hh : g.cache.get? llh = none := (PyDict.get?_eq_none_iff _ _).2 hcache
  unfold registerSim at halone ⊢
  simp only [hnew, Bool.false_eq_true, if_false] at halone ⊢
  generalize hc0 : ({ name := a.comp, llhName := llh, rateName := a.comp ++ "_rate", registry := a.registry } : Comp) = c0 at *
  generalize ha : (DeduceArgs.mk (binsOn ++ ["eff"]) (llh ++ "_" ++ a.comp ++ "_sim") _ _ a.required _) = a0 at *
  have hl : c0.llhName = llh := by rw [← hc0]
  have hok : ∃ c' g', deduce c0 {} a0 = ((c', g'), .ok ()) := by
    generalize deduce c0 {} a0 = x at halone
    obtain ⟨⟨c', g'⟩, r⟩ := x
    cases r with
    | error e => simp at halone
    | ok u => exact ⟨c', g', rfl⟩
  obtain ⟨c', g', hd⟩ := hok
  obtain ⟨deps, nd, h1, h2, _, _, _⟩ := deduce_ok_iff hd
  have hnk : a.comp ∉ s.components.keys := by
    intro h
    rw [(PyDict.has_iff _ _).2 h] at hnew
    cases hnew
  have hr : ∀ c, register al s a.comp (.ok (wrap c)) = (⟨s.components.set a.comp (wrap c),
      al.foldl aliasNeeded (s.needed ++ (wrap c).needed.filter (fun x => x ∉ s.needed))⟩, .ok ()) := by
    intro c
    unfold register
    simp [hnew]
  unfold deduce
  simp only [h1, h2, PyDict.has, hl, hh, Option.isSome_none, Bool.false_eq_true, if_false]
  unfold compile
  simp only [hl, PyDict.get?_set_self, hr]
  simp [PyDict.keys_set, hnk, genCode]

/-- **C74 (components).** After any sequence of registrations, failing ones included, the components are the ones held before followed
by those whose registration succeeded, in the order of their registration. -/
theorem C74_components (llh : String) (binsOn : List String) (al : PyDict String String) (wrap : Comp → LComp K V)
    (rs : List (Reg K V)) (sg : State K V × FnCache) :
    (rs.foldl (fun sg r => (regStep llh binsOn al wrap sg r).1) sg).1.components.keys =
      sg.1.components.keys ++ (succeeded llh binsOn al wrap rs sg).map Reg.comp := by
  have hreg : ∀ (s : State K V) n b, (register al s n b).1.components.keys =
      s.components.keys ++ (match (register al s n b).2 with | .ok () => [n] | .error _ => []) := by
    intro s n b
    unfold register
    by_cases h : s.components.has n = true
    · simp [h]
    · have hn : n ∉ s.components.keys := fun hk => h ((PyDict.has_iff _ _).2 hk)
      cases b with
      | error e => simp [h]
      | ok c => simp [h, PyDict.keys_set, hn]
  have hstep : ∀ (sg : State K V × FnCache) r, (regStep llh binsOn al wrap sg r).1.1.components.keys =
      sg.1.components.keys ++ (match (regStep llh binsOn al wrap sg r).2 with | .ok () => [r] | .error _ => []).map Reg.comp := by
    intro sg r
    cases r with
    | fixed n b =>
      simp only [regStep]
      rw [hreg]
      cases (register al sg.1 n b).2 <;> rfl
    | sim a =>
      simp only [regStep, registerSim]
      split
      · simp
      · split
        · simp
        · split
          · simp
          · simp only
            rw [hreg]
            cases (register al sg.1 a.comp _).2 <;> rfl
  induction rs generalizing sg with
  | nil => simp [succeeded]
  | cons r rs ih =>
    rw [List.foldl_cons, ih, hstep]
    simp only [succeeded, List.map_append, List.append_assoc]
    rfl

/-- **C74 (fixed).** A fixed component whose histogram is built and whose name is new is registered, whatever is registered already, and
the other components stay. -/
theorem C74_fixed_accepted (llh : String) (binsOn : List String) (al : PyDict String String) (wrap : Comp → LComp K V)
    (sg : State K V × FnCache) (n : String) (c : LComp K V) (h : n ∉ sg.1.components.keys) :
    (regStep llh binsOn al wrap sg (.fixed n (.ok c))).2 = .ok () ∧
    ∀ m, (regStep llh binsOn al wrap sg (.fixed n (.ok c))).1.1.components.get? m =
      if m = n then some c else sg.1.components.get? m := by
  have hh : sg.1.components.has n = false := by
    rw [Bool.eq_false_iff]; exact fun hk => h ((PyDict.has_iff _ _).1 hk)
  simp only [regStep, register, hh, Bool.false_eq_true, if_false, true_and]
  intro m
  by_cases hm : m = n
  · subst hm; simp [PyDict.get?_set_self]
  · simp [hm, Ne.symm hm, PyDict.get?_set]

end

/-- Non-vacuity: the electronic recoil example of `Props/Component.lean` is accepted once; a second component of the same class
is refused, and a fixed one is still accepted. -/
def exSim (n : String) : Reg Unit Nat := .sim { comp := n, registry := exReg }

example : ((succeeded "l" ["c"] [] (fun c => .other c.needed) [exSim "er", exSim "er2", .fixed "ac" (.ok (.other [])), exSim "nr"]
    ({}, {})).map Reg.isSim) = [true, false] := by decide

example : (regStep "l" ["c"] [] (fun c => .other c.needed)
    (regStep "l" ["c"] [] (fun c => (.other c.needed : LComp Unit Nat)) ({}, {}) (exSim "er")).1 (exSim "er2")).2
      = .error .runtimeError := by decide

/-- Non-vacuity of C74_components. -/
example : ((([exSim "er", exSim "er2", .fixed "ac" (.ok (.other [])), .fixed "ac" (.ok (.other []))] : List (Reg Unit Nat)).foldl
    (fun sg r => (regStep "l" ["c"] [] (fun c => .other c.needed) sg r).1) ({}, {})).1.components.keys) = ["er", "ac"] := by decide

end Verif.Llh
