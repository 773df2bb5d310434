/-
Specification vocabulary for pictures of histograms.
-/
import Verif.Model.HistPlot
import Verif.Spec.Whole

namespace Verif.HistPlot
open Verif

/-- The histogram has one row for each x-bin and in it one content for each y-bin. -/
def Fits {α : Type} (binsX : List ℝ) (binsY : List (List ℝ)) (hist : List (List α)) : Prop :=
  hist.length + 1 = binsX.length ∧ hist.map (fun r => r.length + 1) = binsY.map List.length

/-- The patch is the rectangle of bin `(i, j)`. -/
def Covers (binsX : List ℝ) (binsY : List (List ℝ)) (i j : Nat) (p : Patch) : Prop :=
  ∃ x0 x1 row y0 y1, binsX[i]? = some x0 ∧ binsX[i + 1]? = some x1 ∧ binsY[i]? = some row ∧ row[j]? = some y0 ∧
    row[j + 1]? = some y1 ∧ p.rect.x = x0 ∧ p.rect.x + p.rect.width = x1 ∧ p.rect.y = y0 ∧ p.rect.y + p.rect.height = y1

/-- What the colour of bin `(i, j)` stands for: its content, or its content divided by its area. -/
noncomputable def binValue (density : Bool) (binsX : List ℝ) (binsY : List (List ℝ)) (hist : List (List ℝ)) (b : Nat × Nat) : ℝ :=
  let n := (hist.getD b.1 []).getD b.2 0
  let row := binsY.getD b.1 []
  if density then n / ((binsX.getD (b.1 + 1) 0 - binsX.getD b.1 0) * (row.getD (b.2 + 1) 0 - row.getD b.2 0)) else n

end Verif.HistPlot
