/-
Specification vocabulary for the pictures of maps: which points lie on a drawn line, and which value an image shows at a position.
-/
import Verif.Model.MapPic

namespace Verif.MapPic
open Verif

/-- The point `(x, y)` lies on the straight line between two neighbouring points. -/
def OnLine (pts : List (ℝ × ℝ)) (x y : ℝ) : Prop :=
  ∃ (k : Nat) (p q : ℝ × ℝ), pts[k]? = some p ∧ pts[k + 1]? = some q ∧ p.1 ≤ x ∧ x ≤ q.1 ∧
    y = p.2 + (q.2 - p.2) * ((x - p.1) / (q.1 - p.1))

/-- The position `X` lies inside pixel `i` of `n` pixels of equal size between two ends. -/
def Inside (left right : ℝ) (n i : Nat) (X : ℝ) : Prop :=
  left + (right - left) * (i / n) < X ∧ X < left + (right - left) * ((i + 1) / n)

/-- The image shows the value `v` inside the pixel at the position `(X, Y)`. -/
def Image.Shows (img : Image) (X Y v : ℝ) : Prop :=
  ∃ row col, row < img.rows ∧ col < img.cols ∧ Inside img.left img.right img.cols col X ∧
    Inside img.bottom img.top img.rows row Y ∧ v = img.val row col

/-- Where a coordinate is drawn on an axis: a logarithmic axis shows the logarithm. -/
noncomputable def position (isLog : Bool) (x : ℝ) : ℝ := if isLog then Real.logb 10 x else x

/-- On a logarithmic axis, a number that is a positive normal float. -/
def Usable (isLog : Bool) (x : ℝ) : Prop := isLog = true → Interp.floatPosMin ≤ x ∧ x ≤ Interp.floatPosMax

end Verif.MapPic
