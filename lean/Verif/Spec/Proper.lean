/-
Specification vocabulary for the size of the log posterior: what it means that a returned value does not exceed a number, and the
likelihoods for which this can be said for all parameters at once.
-/
import Verif.Model.Context
import Verif.Spec.Likelihood

namespace Verif.Ctx
open Verif

/-- The value is not plus infinity, and not above `M` if it is a number. -/
def AtMost (M : ℝ) : XF → Prop
  | .fin r => r ≤ M
  | .pinf => False
  | _ => True

/-- For a band: ascending energies, at least two, with positive widths.  The other shapes are checked by the code itself. -/
def LimitedShape : Llh.Shape → Prop
  | .band xs _ up lo => 2 ≤ xs.length ∧ xs.length = up.length ∧ xs.length = lo.length ∧ xs.Pairwise (· < ·) ∧
      (∀ s ∈ up, 0 < s) ∧ ∀ s ∈ lo, 0 < s
  | _ => True

/-- An efficiency between zero and one, or NaN. -/
def Fraction (x : XF) : Prop := x = .nan ∨ ∃ a : ℝ, 0 ≤ a ∧ a ≤ 1 ∧ x = .fin a

/-- For a binned likelihood: counts that are not negative.  For a literature likelihood: plain aliases, positive widths, and a
component that gives for all parameters a limited number of events, with efficiencies between zero and one. -/
def Limited {K : Type} : Obj K → Prop
  | .binned _ data _ => ∀ d ∈ data.flatten, 0 ≤ d
  | .lit al shape _ st => Llh.PlainAliases al ∧ LimitedShape shape ∧ ∃ N : Nat,
      ∀ n c key p k e y f, (n, c) ∈ st.components → c key 1 p = .ok (k, [e, y, f]) →
        e.length ≤ N ∧ y.length ≤ N ∧ f.length ≤ N ∧ ∀ x ∈ f, Fraction x

end Verif.Ctx
