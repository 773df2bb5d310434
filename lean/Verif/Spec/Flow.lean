/-
Specification vocabulary for samples drawn from plugins: an order of the plugins in which every input comes before it is used,
and the samples of the components of a likelihood drawn one after the other.
-/
import Verif.Model.Whole
import Verif.Spec.Whole
import Verif.Spec.Deps
import Verif.Spec.Eval
import Verif.Spec.Context

namespace Verif.Llh
open Verif Comp

/-- The plugins needed for `names`, each once and after the plugins giving its inputs. -/
structure Topological (reg : Registry) (names : List String) (order : List Plugin) : Prop where
  once : order.Nodup
  all : ∀ p, p ∈ order ↔ ∃ d, Reach reg "batch_size" names d ∧ reg.get? d = some p
  covers : ∀ d, Reach reg "batch_size" names d → ∃ p, reg.get? d = some p
  before : ∀ pre p post, order = pre ++ p :: post → ∀ e ∈ p.dependsOn, e = "batch_size" ∨ ∃ q ∈ pre, reg.get? e = some q

variable {K : Type}

/-- The samples of the components at the parameters `q`, drawn one after the other with the key passed on.  A simulated sample
consists of the values of the binned quantities and of the efficiency in a data flow through the plugins; a fixed one is its
table with unit weights.  The rate of a component is the parameter named after it. -/
inductive Draws (S : Setup K) (order : String → List Plugin) (batch : Int) (q : PyDict String ℝ) :
    List Part → K → List (Sample ℝ) → K → Prop
  | nil (k : K) : Draws S order batch q [] k [] k
  | sim {a ps k k' ss k''} {val : String → PVal} {cols : List (List ℝ)} {eff : List ℝ} {rate : ℝ} :
      val "batch_size" = .int batch →
      Evaluates (S.sem q) (Reach a.registry "batch_size" (S.binsOn ++ ["eff"])) val (order a.comp) k k' →
      S.binsOn.map val = cols.map .col → val "eff" = .col eff →
      q.get? (a.comp ++ "_rate") = some rate →
      Draws S order batch q ps k' ss k'' →
      Draws S order batch q (.sim a :: ps) k (⟨S.cfg a.comp, cols, eff, rate, batch⟩ :: ss) k''
  | fixed {name data n ps k ss k'} {rate : ℝ} :
      q.get? (name ++ "_rate") = some rate →
      Draws S order batch q ps k ss k' →
      Draws S order batch q (.fixed name data n :: ps) k (⟨S.cfg name, data, List.replicate n 1, rate, n⟩ :: ss) k'

/-- The name of a component. -/
def Part.name : Part → String
  | .sim a => a.comp
  | .fixed n _ _ => n

/-- A likelihood as a user sets it up: distinct aliases; all components use its bins; the weight is not a binned quantity; the
plugins of simulated components are consistent, exported under their names, and return one column per output; fixed tables
have as many columns as there are binned quantities. -/
structure Setup.Proper (S : Setup K) (bins : Bins ℝ) (parts : List Part) : Prop where
  aliases : PlainAliases S.al
  bins_eq : ∀ p ∈ parts, (S.cfg p.name).bins = bins
  ascending : Ascending bins
  dims : S.binsOn.length = bins.dims
  no_eff : "eff" ∉ S.binsOn
  no_batch : "batch_size" ∉ S.binsOn
  provides : ∀ a, Part.sim a ∈ parts → ∀ d p, Reach a.registry "batch_size" (S.binsOn ++ ["eff"]) d →
    a.registry.get? d = some p → d ∈ p.provides ∧ p.provides.Nodup ∧ "batch_size" ∉ p.provides ∧ p.dependsOn ≠ [] ∧
      S.ns.get? p.name = some p
  sole : ∀ a, Part.sim a ∈ parts → ∀ d p d', Reach a.registry "batch_size" (S.binsOn ++ ["eff"]) d →
    a.registry.get? d = some p → d' ∈ p.provides → Reach a.registry "batch_size" (S.binsOn ++ ["eff"]) d' →
    a.registry.get? d' = some p
  returns : ∀ a, Part.sim a ∈ parts → ∀ d p, Reach a.registry "batch_size" (S.binsOn ++ ["eff"]) d →
    a.registry.get? d = some p → ∀ q k args, args.length = p.dependsOn.length →
    ∃ k' outs, S.sem q p k args = .ok (k', outs) ∧ outs.length = p.provides.length ∧ ∀ o ∈ outs, ∃ c, o = .col c
  tables : ∀ n d m, Part.fixed n d m ∈ parts → d.length = bins.dims

open Classical in
/-- The number of data events in a bin. -/
noncomputable def countIn (bins : Bins ℝ) (data : List (List (Option ℝ))) (b : Nat × Nat) : ℕ :=
  data.countP (fun r => decide (EventIn bins b.1 b.2 r))

/-- The number of events expected in a bin from all components. -/
noncomputable def expectedIn (ss : List (Sample ℝ)) (b : Nat × Nat) : ℝ := (ss.map (fun s => s.expected b)).sum

/-- The binned Poisson log likelihood of the data, up to the term that only depends on the data. -/
noncomputable def binnedLogL (bins : Bins ℝ) (data : List (List (Option ℝ))) (ss : List (Sample ℝ)) : ℝ :=
  ((binList bins).map (fun b => countIn bins data b * Real.log (expectedIn ss b) - expectedIn ss b)).sum

/-- A likelihood: how it is set up, its components, its bins and its data events. -/
structure Fitted (K : Type) where
  name : String
  setup : Setup K
  parts : List Part
  bins : Bins ℝ
  data : List (List (Option ℝ))

/-- The entry of a context is the likelihood `f`, constructed from some configuration and file, with the components of `f`
registered. -/
def Fitted.Made (f : Fitted K) (e : String × Ctx.Obj K) : Prop :=
  ∃ eq cfg load b g st g', init eq cfg load = .ok b ∧ b.bins = f.bins ∧ b.data = f.data ∧ f.setup.Proper f.bins f.parts ∧
    f.setup.build f.parts (⟨[], []⟩, g) = ((st, g'), .ok ()) ∧ e = (f.name, .binned f.setup.al b.dataHist st)

/-- The samples of several likelihoods, drawn one after the other. -/
inductive DrawsAll (order : String → String → List Plugin) (batch : Int) (q : PyDict String ℝ) :
    List (Fitted K) → K → List (List (Sample ℝ)) → K → Prop
  | nil (k : K) : DrawsAll order batch q [] k [] k
  | cons {f fs k ss k' sss k''} :
      Draws f.setup (order f.name) batch (replaceAlias f.setup.al q) f.parts k ss k' →
      DrawsAll order batch q fs k' sss k'' →
      DrawsAll order batch q (f :: fs) k (ss :: sss) k''

end Verif.Llh
