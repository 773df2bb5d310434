import Verif.Model.Recompile
import Mathlib.Tactic.Ring

namespace Verif.Recompile
open Verif Comp

section
variable {F K : Type} [Field F] [LinearOrder F]

theorem hstack_one (r : List (List F)) (i : Nat) (c : List F) (h : r[i]? = some c) : hstackColumn [r] i = .ok c := by
  simp [hstackColumn, columnAt, h, bind, Except.bind, pure, Except.pure]

theorem mapM_ok {α β : Type} (f : α → Res β) (g : α → β) (l : List α) (h : ∀ x ∈ l, f x = .ok (g x)) :
    l.mapM f = .ok (l.map g) := by
  induction l with
  | nil => rfl
  | cons a l ih =>
    rw [List.mapM_cons, h a (by simp), ih (fun x hx => h x (by simp [hx]))]
    rfl

/-- A single repetition is one simulation. -/
theorem multiple_one (sim : K → K × List (List F)) (force apply : Bool) (key : K) :
    multipleSimulations sim force apply 1 key = oneSimulation sim force apply key := by
  unfold multipleSimulations
  rw [if_neg (by decide)]
  simp only [Int.toNat_one, simLoop, bind, Except.bind, pure, Except.pure]
  cases ho : oneSimulation sim force apply key with
  | error e => rfl
  | ok r =>
    obtain ⟨k, r⟩ := r
    simp only [List.nil_append, List.getLast?_singleton, Option.getD_some]
    rw [mapM_ok (hstackColumn [r]) (fun i => (r[i]?).getD []) (List.range r.length) ?_]
    · simp only [Except.ok.injEq, Prod.mk.injEq, true_and]
      apply List.ext_getElem?
      intro i
      rw [List.getElem?_map]
      by_cases hi : i < r.length
      · simp [List.getElem?_range, hi]
      · rw [List.getElem?_eq_none (by simpa using hi), List.getElem?_eq_none (by omega)]; rfl
    · intro i hi
      rw [List.mem_range] at hi
      rw [hstack_one r i r[i] (by simp [hi])]
      simp [hi]

/-- What a successful loop did. -/
theorem rounds_spec (useMc : Res Bool) (llh : String) (batch : Int) (keySum : K → Int) (compiled : G4 → Res (K → K × List (List F)))
    (force apply : Bool) (n : Nat) (key : K) (g g' : G4) (pile : List (List (List F))) (key' : K) (pile' : List (List (List F)))
    (h : rounds useMc llh batch keySum compiled force apply n key g pile = (g', .ok (key', pile'))) :
    ∃ (keys : Nat → K) (gs : Nat → G4) (new : List (List (List F))), pile' = pile ++ new ∧ new.length = n ∧ keys 0 = key ∧ keys n = key' ∧
      gs 0 = g ∧ gs n = g' ∧ ∀ j < n, newG4 useMc llh batch (keySum (keys j)) (gs j) = .ok (gs (j + 1)) ∧
        ∃ sim res, compiled (gs (j + 1)) = .ok sim ∧ oneSimulation sim force apply (keys j) = .ok (keys (j + 1), res) ∧
          new[j]? = some res := by
  induction n generalizing key g pile with
  | zero =>
    simp only [rounds, Prod.mk.injEq, Except.ok.injEq] at h
    obtain ⟨rfl, rfl, rfl⟩ := h
    exact ⟨fun _ => key, fun _ => g, [], by simp⟩
  | succ n ih =>
    simp only [rounds] at h
    split at h
    · simp at h
    rename_i g1 hg1
    split at h
    · simp at h
    rename_i sim hsim
    split at h
    · simp at h
    rename_i r hr
    rw [multiple_one] at hr
    obtain ⟨keys, gs, new, h1, h2, h3, h4, h5, h6, h7⟩ := ih _ _ _ h
    refine ⟨fun j => Nat.casesOn j key keys, fun j => Nat.casesOn j g gs, r.2 :: new, ?_, ?_, rfl, h4, rfl, h6, ?_⟩
    · rw [h1]; simp
    · simp [h2]
    · intro j hj
      cases j with
      | zero =>
        refine ⟨?_, sim, r.2, ?_, ?_, rfl⟩
        · show newG4 useMc llh batch (keySum key) g = .ok (gs 0)
          rw [h5]; exact hg1
        · show compiled (gs 0) = .ok sim
          rw [h5]; exact hsim
        · show oneSimulation sim force apply key = .ok (keys 0, r.2)
          rw [h3]; exact hr
      | succ j =>
        obtain ⟨a, s, res, b, c, d⟩ := h7 j (by omega)
        exact ⟨a, s, res, b, c, by simpa using d⟩

/-- If the value of "g4" does not change, the loop is the one without compilation. -/
theorem rounds_const (useMc : Res Bool) (llh : String) (batch : Int) (keySum : K → Int) (compiled : G4 → Res (K → K × List (List F)))
    (force apply : Bool) (g : G4) (hg : ∀ seed, newG4 useMc llh batch seed g = .ok g) (sim : K → K × List (List F))
    (hs : compiled g = .ok sim) (n : Nat) (key : K) (pile : List (List (List F))) :
    rounds useMc llh batch keySum compiled force apply n key g pile = (g, simLoop sim force apply n key pile) := by
  induction n generalizing key pile with
  | zero => rfl
  | succ n ih =>
    simp only [rounds, hg, hs, multiple_one, simLoop, bind, Except.bind]
    cases ho : oneSimulation sim force apply key with
    | error e => rfl
    | ok r => simp only [ih]

end
end Verif.Recompile
