/-
Vocabulary for C134: dividing the same range into finer bins.
-/
import Verif.Spec.Flow

namespace Verif.Llh
open Verif Comp

/-- The edges `f` divide the range of the edges `c` further: they ascend, contain the edges `c`, and begin and end with them. -/
structure FinerAxis (f c : List ℝ) : Prop where
  strict : f.Pairwise (· < ·)
  edges : c.Sublist f
  first : f.head? = c.head?
  last : f.getLast? = c.getLast?

/-- The bins `f` divide the bins `c` further.  Irregular bins in two dimensions keep the edges of the first axis. -/
def Finer : Bins ℝ → Bins ℝ → Prop
  | .irreg1 f, .irreg1 c => FinerAxis f c
  | .mesh1 f, .mesh1 c => FinerAxis f c
  | .mesh2 fx fy, .mesh2 cx cy => FinerAxis fx cx ∧ FinerAxis fy cy
  | .irreg2 fx fy, .irreg2 cx cy => fx.Pairwise (· < ·) ∧ fx = cx ∧ List.Forall₂ FinerAxis fy cy
  | _, _ => False

/-- Every event in the bin `f` of `fine` lies in the bin `c` of `coarse`. -/
def Within (fine coarse : Bins ℝ) (f c : Nat × Nat) : Prop := ∀ row, EventIn fine f.1 f.2 row → EventIn coarse c.1 c.2 row

open Classical in
/-- The fine bins that make up a coarse one. -/
noncomputable def piecesOf (fine coarse : Bins ℝ) (c : Nat × Nat) : List (Nat × Nat) :=
  (binList fine).filter (fun f => decide (Within fine coarse f c))

variable {K : Type}

/-- The same components with other bins. -/
def Setup.withBins (S : Setup K) (bins : Bins ℝ) : Setup K := { S with cfg := fun n => { S.cfg n with bins := bins } }

/-- The same events with other bins. -/
def Sample.withBins (s : Sample ℝ) (bins : Bins ℝ) : Sample ℝ := { s with cfg := { s.cfg with bins := bins } }

open Classical in
/-- The weight of the simulated events in a bin. -/
noncomputable def Sample.weight (s : Sample ℝ) (b : Nat × Nat) : ℝ :=
  Hist.weightOf (EventIn s.cfg.bins b.1 b.2) ((eventRows s.cols).zip s.eff)

/-- The average efficiency of the sample and the smallest content of a bin where a floor was asked for. -/
noncomputable def Sample.floor (s : Sample ℝ) : ℝ := 1 / 10000000000 + s.eff.sum / (s.eff.length : ℝ)

/-- Every bin holds at least the floor, where there is one, so that the floor changes nothing. -/
def Sample.Filled (s : Sample ℝ) : Prop :=
  s.cfg.addEps = true → (∀ e ∈ s.eff, 0 ≤ e) ∧ ∀ f ∈ binList s.cfg.bins, s.floor ≤ s.weight f

end Verif.Llh
