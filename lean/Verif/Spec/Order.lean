/-
Specification vocabulary for the order in which components and likelihoods are listed: random steps that use up a key.
-/
import Verif.Model.Context
import Mathlib.MeasureTheory.Measure.Prod
import Mathlib.MeasureTheory.Constructions.BorelSpace.Basic

/-- The measurable sets of floating-point numbers: those whose ordinary members form a measurable set of real numbers. -/
instance : MeasurableSpace Verif.XF := MeasurableSpace.map Verif.XF.fin inferInstance

namespace Verif.Order
open Verif MeasureTheory

variable {K M : Type} [MeasurableSpace K] [MeasurableSpace M]

/-- A step that turns a key into a new key and a result: when the key is drawn from `ρ`, the new key is also distributed like
`ρ`, and is independent of the result. This is what is expected of a generator that splits its keys. -/
def Fresh (ρ : Measure K) (s : K → K × M) : Prop :=
  Measurable s ∧ ρ.map (fun k => ((s k).2, (s k).1)) = (ρ.map (fun k => (s k).2)).prod ρ

/-- The histogram in the shape of `data` with the given contents. -/
def gridOf (data : Llh.Grid ℝ) (f : Nat × Nat → XF) : Llh.Grid XF := data.mapIdx fun i r => r.mapIdx fun j _ => f (i, j)

/-- The component gives a histogram in the shape of `data` whose contents are random, or fixed. -/
def RandomComp (ρ : Measure K) (data : Llh.Grid ℝ) (batch : Int) (p : PyDict String XF) : Llh.LComp K XF → Prop
  | .sim _ h _ => ∃ s : K → K × (Nat × Nat → XF), Fresh ρ s ∧ ∀ key, h key batch p = .ok ((s key).1, gridOf data (s key).2)
  | .fixed _ h _ => ∃ f, h p = .ok (gridOf data f)
  | .other _ => False

/-- The components of a binned likelihood, or the whole of a literature likelihood, are random as described above. -/
def RandomObj (ρ : Measure K) (batch : Int) (p : PyDict String XF) : Ctx.Obj K → Prop
  | .binned al data st => ∀ m c, (m, c) ∈ st.components →
      RandomComp ρ data batch (Llh.replaceAlias al (Llh.replaceAlias al p)) c
  | .lit al shape _ st => ∃ s : K → K × XF, Fresh ρ s ∧ ∀ key, Llh.litLogLikelihood al shape st key batch p = .ok (s key)

/-- The same likelihood with its components listed in another order. -/
def Reordered : Ctx.Obj K → Ctx.Obj K → Prop
  | .binned al data st, .binned al' data' st' => al' = al ∧ data' = data ∧ st.components.Perm st'.components
  | o, o' => o' = o

/-- The same likelihoods listed in another order, each with its components listed in another order. -/
def SameUpToOrder (c c' : Ctx.Ctx K) : Prop :=
  c'.pm = c.pm ∧ ∃ mid : List (String × Ctx.Obj K), c.likelihoods.Perm mid ∧
    List.Forall₂ (fun a b => b.1 = a.1 ∧ Reordered a.2 b.2) mid c'.likelihoods

end Verif.Order
