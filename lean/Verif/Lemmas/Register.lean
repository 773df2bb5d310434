/-
Helper lemmas for C74.
-/
import Verif.Spec.Register
import Verif.Lemmas.Component

namespace Verif.Llh
open Verif Comp

section
variable {K V : Type}

theorem deduce_cache_keys (c : Comp) (g : FnCache) (a : DeduceArgs) (n : String) (h : n ∈ g.cache.keys) :
    n ∈ (deduce c g a).1.2.cache.keys := by
  unfold deduce
  simp only
  split
  · exact h
  · split
    · exact h
    · split
      · exact h
      · simp only [PyDict.keys_set]
        split
        · exact h
        · exact List.mem_append_left _ h

theorem deduce_ok_cache (c c' : Comp) (g g' : FnCache) (a : DeduceArgs) (h : deduce c g a = ((c', g'), .ok ())) :
    c.llhName ∉ g.cache.keys ∧ c.llhName ∈ g'.cache.keys ∧ c'.llhName = c.llhName := by
  obtain ⟨_, _, _, _, rfl, hn, rfl⟩ := deduce_ok_iff h
  refine ⟨(PyDict.get?_eq_none_iff _ _).1 hn, ?_, rfl⟩
  simp only
  rw [PyDict.keys_set]
  split
  · assumption
  · exact List.mem_append_right _ (by simp)

theorem compile_cache (c : Comp) (g : FnCache) : (compile c g).1.2.cache = g.cache := by
  unfold compile
  split
  · rfl
  · simp only
    split
    · rfl
    · split <;> rfl

theorem regStep_sim (llh : String) (binsOn : List String) (al : PyDict String String) (wrap : Comp → LComp K V)
    (s : State K V) (g : FnCache) (a : SimArgs) :
    (llh ∈ g.cache.keys → llh ∈ (registerSim llh binsOn al wrap s g a).1.2.cache.keys ∧
      (registerSim llh binsOn al wrap s g a).2 ≠ .ok () ∧ (registerSim llh binsOn al wrap s g a).1.1 = s) ∧
    ((registerSim llh binsOn al wrap s g a).2 = .ok () →
      llh ∈ (registerSim llh binsOn al wrap s g a).1.2.cache.keys) := by
  unfold registerSim
  by_cases hhas : s.components.has a.comp = true
  · simp [hhas]
  · simp only [hhas, Bool.false_eq_true, if_false]
    generalize hx : deduce _ g _ = x
    obtain ⟨⟨c, g'⟩, r⟩ := x
    have hk := fun h => deduce_cache_keys
      { name := a.comp, llhName := llh, rateName := a.comp ++ "_rate", registry := a.registry } g
      { dataNames := binsOn ++ ["eff"], funcName := llh ++ "_" ++ a.comp ++ "_sim", required := a.required } llh h
    rw [hx] at hk
    cases r with
    | error e => exact ⟨fun h => ⟨hk h, by simp, rfl⟩, by simp⟩
    | ok u =>
      obtain ⟨h1, h2, h3⟩ := deduce_ok_cache _ _ _ _ _ hx
      simp only at h1 h2
      refine ⟨fun h => absurd h h1, ?_⟩
      have hc := compile_cache c g'
      simp only
      generalize compile c g' = y at hc ⊢
      obtain ⟨⟨c2, g2⟩, r2⟩ := y
      simp only at hc
      cases r2 with
      | error e => simp
      | ok u => intro _; simp only [hc]; exact h2

end
end Verif.Llh
