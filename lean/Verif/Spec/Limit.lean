/-
Specification vocabulary for large batches: events that are independent with one law, the weight an event is expected to have
in a bin, and the histogram and log likelihood these expectations give.
-/
import Verif.Spec.Flow
import Mathlib.Probability.Moments.Variance

namespace Verif.Llh
open Verif MeasureTheory ProbabilityTheory

/-- The position of an event as a row. -/
def posRow {d : Nat} (x : Fin d → ℝ) : List (Option ℝ) := List.ofFn (fun c => some (x c))

/-- `n` events with positions `X k` and weights `W k`, as the sample of a component. -/
noncomputable def sampleOf (cfg : Comp.HistCfg ℝ) (rate : ℝ) (n : Nat) (X : Nat → Fin cfg.bins.dims → ℝ) (W : Nat → ℝ) :
    Sample ℝ where
  cfg := cfg
  cols := List.ofFn (fun c => (List.range n).map (fun k => X k c))
  eff := (List.range n).map W
  rate := rate
  simulated := n

section
variable {Ω : Type} [MeasurableSpace Ω]

/-- The first `n` events are independent of each other and all have the given law (of position and weight). -/
structure IdealEvents {d : Nat} (P : Measure Ω) (law : Measure ((Fin d → ℝ) × ℝ)) (n : Nat) (X : Nat → Ω → Fin d → ℝ)
    (W : Nat → Ω → ℝ) : Prop where
  meas : ∀ k < n, Measurable (fun ω => (X k ω, W k ω))
  law : ∀ k < n, P.map (fun ω => (X k ω, W k ω)) = law
  indep : ∀ i < n, ∀ j < n, i ≠ j → IndepFun (fun ω => (X i ω, W i ω)) (fun ω => (X j ω, W j ω)) P

end

/-- A law of events: a probability measure under which weights are not negative and have a second moment. -/
structure EventLaw {d : Nat} (law : Measure ((Fin d → ℝ) × ℝ)) : Prop where
  prob : IsProbabilityMeasure law
  nonneg : ∀ᵐ z ∂law, 0 ≤ z.2
  square : MemLp (fun z : (Fin d → ℝ) × ℝ => z.2) 2 law

open Classical in
/-- The weight that an event has in a bin. -/
noncomputable def weightIn (bins : Comp.Bins ℝ) (b : Nat × Nat) (z : (Fin bins.dims → ℝ) × ℝ) : ℝ :=
  if EventIn bins b.1 b.2 (posRow z.1) then z.2 else 0

/-- The weight that an event is expected to have in a bin: the probability of being there and being accepted. -/
noncomputable def acceptance (bins : Comp.Bins ℝ) (law : Measure ((Fin bins.dims → ℝ) × ℝ)) (b : Nat × Nat) : ℝ :=
  ∫ z, weightIn bins b z ∂law

/-- The expected number of events in a bin of a component whose events follow the law: per simulated event the rate
(`on_sim`), or the rate shared out over the bins (`on_pdf`). -/
noncomputable def trueExpected (cfg : Comp.HistCfg ℝ) (rate : ℝ) (law : Measure ((Fin cfg.bins.dims → ℝ) × ℝ))
    (b : Nat × Nat) : ℝ :=
  if cfg.normType = "on_pdf" then
    rate * acceptance cfg.bins law b / ((binList cfg.bins).map (acceptance cfg.bins law)).sum
  else rate * acceptance cfg.bins law b

/-- A component that can be normalised in the limit: its events are simulated, and with `on_pdf` some bin is reached. -/
def LimitOk (cfg : Comp.HistCfg ℝ) (law : Measure ((Fin cfg.bins.dims → ℝ) × ℝ)) : Prop :=
  (cfg.normType = "on_pdf" ∧ 0 < ((binList cfg.bins).map (acceptance cfg.bins law)).sum) ∨
  (cfg.normType = "on_sim" ∧ cfg.energy = .simulated)

/-- The random numbers `f n` approach `c` in probability. -/
def Approaches {Ω : Type} [MeasurableSpace Ω] (P : Measure Ω) (f : Nat → Ω → ℝ) (c : ℝ) : Prop :=
  ∀ ε > 0, Filter.Tendsto (fun n => P {ω | ε ≤ |f n ω - c|}) Filter.atTop (nhds 0)

section
variable {Ω : Type} [MeasurableSpace Ω]

/-- Where the sample of a component comes from at batch size `n` and outcome `ω`: `n` events, or a table. -/
inductive Source (Ω : Type)
  | events (cfg : Comp.HistCfg ℝ) (rate : ℝ) (law : Measure ((Fin cfg.bins.dims → ℝ) × ℝ))
      (X : Nat → Nat → Ω → Fin cfg.bins.dims → ℝ) (W : Nat → Nat → Ω → ℝ)
  | table (s : Sample ℝ)

noncomputable def Source.sample {Ω : Type} : Source Ω → Nat → Ω → Sample ℝ
  | .events cfg rate _ X W, n, ω => sampleOf cfg rate n (fun k => X n k ω) (fun k => W n k ω)
  | .table s, _, _ => s

/-- Independent events that follow the law, for each batch size. -/
structure IdealSource (P : Measure Ω) (cfg : Comp.HistCfg ℝ) (law : Measure ((Fin cfg.bins.dims → ℝ) × ℝ))
    (X : Nat → Nat → Ω → Fin cfg.bins.dims → ℝ) (W : Nat → Nat → Ω → ℝ) : Prop where
  ascending : Ascending cfg.bins
  eventLaw : EventLaw law
  ok : LimitOk cfg law
  events : ∀ n, IdealEvents P law n (X n) (W n)

def Source.Ideal (P : Measure Ω) : Source Ω → Prop
  | .events cfg _ law X W => IdealSource P cfg law X W
  | .table s => s.Normalisable

/-- The number of events a component expects in a bin in the limit. -/
noncomputable def Source.limit {Ω : Type} : Source Ω → Nat × Nat → ℝ
  | .events cfg rate law _ _, b => trueExpected cfg rate law b
  | .table s, b => s.expected b

noncomputable def limitIn {Ω : Type} (srcs : List (Source Ω)) (b : Nat × Nat) : ℝ := (srcs.map (fun s => s.limit b)).sum

/-- The Poisson log likelihood of the data for the expectations in the limit. -/
noncomputable def trueLogL {Ω : Type} (bins : Comp.Bins ℝ) (data : List (List (Option ℝ))) (srcs : List (Source Ω)) : ℝ :=
  ((binList bins).map (fun b => countIn bins data b * Real.log (limitIn srcs b) - limitIn srcs b)).sum

/-- The templates of the component are normalised on the simulation and not raised to the floor. -/
def Source.Plain {Ω : Type} : Source Ω → Prop
  | .events cfg _ _ _ _ => cfg.normType = "on_sim" ∧ cfg.energy = .simulated ∧ cfg.addEps = false
  | .table _ => True

end

end Verif.Llh
