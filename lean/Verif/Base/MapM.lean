/- `mapM` in `Except`: general helper lemmas. -/
import Verif.Base.Py
import Mathlib.Data.List.Forall2

namespace Verif

/-- Successful `mapM` in `Except`, as a relation. -/
theorem mapM_ok_iff {α β : Type*} (f : α → Res β) (l : List α) (r : List β) :
    l.mapM f = .ok r ↔ List.Forall₂ (fun a b => f a = .ok b) l r := by
  induction l generalizing r with
  | nil =>
    simp only [List.mapM_nil]
    constructor
    · intro h; cases h; exact .nil
    · intro h; cases h; rfl
  | cons a l ih =>
    rw [List.mapM_cons]
    constructor
    · intro h
      cases ha : f a with
      | error e => rw [ha] at h; cases h
      | ok b =>
        rw [ha] at h
        cases hl : l.mapM f with
        | error e => rw [hl] at h; cases h
        | ok bs => rw [hl] at h; cases h; exact .cons ha ((ih bs).1 hl)
    · intro h
      cases h with
      | cons h1 h2 => rw [h1, (ih _).2 h2]; rfl

/-- `mapM` succeeds when every element does. -/
theorem mapM_ok_of_forall {α β : Type*} (f : α → Res β) (g : α → β) (l : List α)
    (h : ∀ a ∈ l, f a = .ok (g a)) : l.mapM f = .ok (l.map g) := by
  rw [mapM_ok_iff, List.forall₂_map_right_iff, List.forall₂_same]
  exact h

/-- Successful `mapM` in `Except`, index by index. -/
theorem mapM_ok_get {α β : Type*} (f : α → Res β) (l : List α) (r : List β) (h : l.mapM f = .ok r) :
    r.length = l.length ∧ ∀ (i : Nat) (b : β), r[i]? = some b → ∃ a, l[i]? = some a ∧ f a = .ok b := by
  have h2 := (mapM_ok_iff f l r).1 h
  clear h
  induction h2 with
  | nil => simp
  | cons h1 _ ih =>
    refine ⟨by simp [ih.1], ?_⟩
    intro i b hb
    cases i with
    | zero => simp at hb; subst hb; exact ⟨_, rfl, h1⟩
    | succ i => simpa using ih.2 i b (by simpa using hb)

end Verif
