/-
Specification vocabulary for the whole chain from plugins to the posterior: the bins of a likelihood in order, the number of
events a component predicts in each, and what it means for a sample to come from the plugins.
-/
import Verif.Spec.Likelihood
import Verif.Spec.Weight

namespace Verif.Llh
open Verif

section
variable {F : Type} [Field F] [LinearOrder F]

/-- The number of bins in each row of the histogram. -/
def binShape : Comp.Bins F → List Nat
  | .mesh1 e => [e.length - 1]
  | .irreg1 e => [e.length - 1]
  | .mesh2 x y => List.replicate (x.length - 1) (y.length - 1)
  | .irreg2 x y => (List.range (x.length - 1)).map (fun i => ((y[i]?).getD []).length - 1)
  | _ => []

/-- All positions of a table with the given row lengths, row by row. -/
def cells (shape : List Nat) : List (Nat × Nat) := shape.zipIdx.flatMap (fun ni => (List.range ni.1).map (fun j => (ni.2, j)))

/-- The bins in order. -/
def binList (bins : Comp.Bins F) : List (Nat × Nat) := cells (binShape bins)

/-- Events given by columns, as rows. -/
def eventRows : List (List F) → List (List (Option F))
  | [c] => c.map (fun v => [some v])
  | [c, d] => List.zipWith (fun a b => [some a, some b]) c d
  | _ => []

/-- Events of a component: their columns, their weights, the rate, and the number of events simulated. -/
structure Sample (F : Type) where
  cfg : Comp.HistCfg F
  cols : List (List F)
  eff : List F
  rate : F
  simulated : F

open Classical in
/-- The weight of the events in a bin, or the floor if that is larger and a floor was asked for. -/
noncomputable def Sample.content (s : Sample F) (b : Nat × Nat) : F :=
  let w := Hist.weightOf (EventIn s.cfg.bins b.1 b.2) ((eventRows s.cols).zip s.eff)
  if s.cfg.addEps then max w (1 / 10000000000 + s.eff.sum / (s.eff.length : F)) else w

/-- What the contents are divided by: their sum (`on_pdf`), the size of the bootstrapped table or the number of simulated
events (`on_sim`). -/
noncomputable def Sample.norm (s : Sample F) : F :=
  if s.cfg.normType = "on_pdf" then ((binList s.cfg.bins).map s.content).sum
  else if s.cfg.energy = .bootstrap then s.cfg.nSelected else s.simulated

/-- The number of events the component predicts in a bin. -/
noncomputable def Sample.expected (s : Sample F) (b : Nat × Nat) : F := s.rate * s.content b / s.norm

/-- A known way of normalising, applicable to the component, and nothing to divide by zero. -/
def Sample.Normalisable (s : Sample F) : Prop :=
  (s.cfg.normType = "on_pdf" ∨ (s.cfg.normType = "on_sim" ∧ (s.cfg.energy = .simulated ∨ s.cfg.energy = .bootstrap))) ∧
  s.norm ≠ 0

end
end Verif.Llh
