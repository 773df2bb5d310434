/-
Words for C150: arrays of different lengths in a literature likelihood.
-/
import Verif.Model.Likelihood

namespace Verif.Llh

/-- Lengths that numpy can combine: all that are not one are equal. -/
def Agree (lens : List Nat) : Prop := ∀ a ∈ lens, ∀ b ∈ lens, a ≠ 1 → b ≠ 1 → a = b

/-- The array `l` gives the value `g i` for each of `n` points: either one value per point, or one value for all of them. -/
def Gives {α : Type} (n : Nat) (l : List α) (g : Nat → α) : Prop :=
  l = (List.range n).map g ∨ ∃ a, l = [a] ∧ ∀ i < n, g i = a

end Verif.Llh
