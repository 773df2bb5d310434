/-
Specification vocabulary for likelihoods: which events are kept, what edges cover the clip ranges, what parameter a caller
must give for a component parameter, and runs of components one after the other.
-/
import Verif.Model.Likelihood
import Mathlib.Analysis.SpecialFunctions.Log.Basic
import Mathlib.Analysis.Real.Sqrt

namespace Verif.Llh
open Verif

section
variable {F : Type} [Field F] [LinearOrder F]

/-- Entry `i` of the row is a number strictly between the bounds. -/
def StrictlyBetween (c : F × F) (row : List (Option F)) (i : Nat) : Prop :=
  ∃ v, row[i]? = some (some v) ∧ c.1 < v ∧ v < c.2

/-- Ascending edges from one bound to the other. -/
def Spans (e : List F) (c : F × F) : Prop := ∃ mid, e = c.1 :: mid ++ [c.2] ∧ e.Pairwise (· ≤ ·)

/-- The bins run from clip bound to clip bound on each axis. -/
def OuterEdges (cfg : Config F) : Comp.Bins F → Prop
  | .mesh1 e => ∃ c, cfg.clip = some c ∧ Spans e c
  | .irreg1 e => ∃ c, cfg.clip = some c ∧ Spans e c
  | .mesh2 x y => ∃ cx cy, cfg.xClip = some cx ∧ cfg.yClip = some cy ∧ Spans x cx ∧ Spans y cy
  | .irreg2 x y => ∃ cx cy, cfg.xClip = some cx ∧ cfg.yClip = some cy ∧ Spans x cx ∧ y.length + 1 = x.length ∧
      (∃ m, ∀ row ∈ y, row.length = m) ∧ ∀ row ∈ y, Spans row cy
  | _ => False

/-- Ascending edges; in two dimensions with one list of y edges, all of one length, for each x-bin. -/
def Ascending : Comp.Bins F → Prop
  | .mesh1 e => e.Pairwise (· ≤ ·)
  | .irreg1 e => e.Pairwise (· ≤ ·)
  | .mesh2 x y => x.Pairwise (· ≤ ·) ∧ y.Pairwise (· ≤ ·)
  | .irreg2 x y => x.Pairwise (· ≤ ·) ∧ y.length + 1 = x.length ∧ ∃ m, ∀ row ∈ y, row.length = m ∧ row.Pairwise (· ≤ ·)
  | _ => False

/-- Entry `k` of the row lies in bin `j` of the edges, the lower edge excluded and the upper one included. -/
def InUpper (e : List F) (j : Nat) (row : List (Option F)) (k : Nat) : Prop :=
  ∃ lo hi v, e[j]? = some lo ∧ e[j + 1]? = some hi ∧ row[k]? = some (some v) ∧ lo < v ∧ v ≤ hi

/-- Entry `k` of the row lies in bin `j` of the edges, the lower edge included; the upper one only in the last bin. -/
def InLower (e : List F) (j : Nat) (row : List (Option F)) (k : Nat) : Prop :=
  ∃ lo hi v, e[j]? = some lo ∧ e[j + 1]? = some hi ∧ row[k]? = some (some v) ∧ lo ≤ v ∧
    (v < hi ∨ (j + 2 = e.length ∧ v = hi))

/-- `(i, j)` is a bin: row 0 in one dimension, x-bin `i` and y-bin `j` in two. -/
def IsBin : Comp.Bins F → Nat → Nat → Prop
  | .mesh1 e, i, j => i = 0 ∧ j + 1 < e.length
  | .irreg1 e, i, j => i = 0 ∧ j + 1 < e.length
  | .mesh2 x y, i, j => i + 1 < x.length ∧ j + 1 < y.length
  | .irreg2 x y, i, j => i + 1 < x.length ∧ ∃ r, y[i]? = some r ∧ j + 1 < r.length
  | _, _, _ => False

/-- The event lies in bin `(i, j)`. -/
def EventIn : Comp.Bins F → Nat → Nat → List (Option F) → Prop
  | .mesh1 e, _, j, row => InLower e j row 0
  | .irreg1 e, _, j, row => InUpper e j row 0
  | .mesh2 x y, i, j, row => InLower x i row 0 ∧ InLower y j row 1
  | .irreg2 x y, i, j, row => InUpper x i row 0 ∧ ∃ r, y[i]? = some r ∧ InUpper r j row 1
  | _, _, _, _ => False

end

/-- The name under which the caller gives parameter `p`: the alias whose target is `p`, or `p` itself. -/
def callerName (al : PyDict String String) (p : String) : String :=
  match al.find? (fun kv => kv.2 = p) with
  | some kv => kv.1
  | none => p

/-- A dictionary (each name once) whose names are not targets and no target of which has two names. -/
structure PlainAliases (al : PyDict String String) : Prop where
  names : al.keys.Nodup
  disjoint : ∀ k ∈ al.keys, k ∉ al.map Prod.snd
  targets : (al.map Prod.snd).Nodup

/-- The components run one after the other on the parameters `p`: simulated ones take the key on, fixed ones do not. -/
inductive Runs {K V : Type} (batch : Int) (p : PyDict String V) :
    List (String × LComp K V) → K → List (Grid V) → K → Prop
  | nil (k : K) : Runs batch p [] k [] k
  | sim {n nd hist w cs k h k' hs k''} : hist k batch p = .ok (k', h) → Runs batch p cs k' hs k'' →
      Runs batch p ((n, .sim nd hist w) :: cs) k (h :: hs) k''
  | fixed {n nd hist w cs k h hs k'} : hist p = .ok h → Runs batch p cs k hs k' →
      Runs batch p ((n, .fixed nd hist w) :: cs) k (h :: hs) k'

/-- The same for weighted data. -/
inductive RunsW {K V : Type} (batch : Int) (p : PyDict String V) :
    List (String × LComp K V) → K → List (Grid V) → K → Prop
  | nil (k : K) : RunsW batch p [] k [] k
  | sim {n nd h w cs k g k' gs k''} : w k batch p = .ok (k', g) → RunsW batch p cs k' gs k'' →
      RunsW batch p ((n, .sim nd h w) :: cs) k (g :: gs) k''
  | fixed {n nd h w cs k g gs k'} : w p = .ok g → RunsW batch p cs k gs k' →
      RunsW batch p ((n, .fixed nd h w) :: cs) k (g :: gs) k'

/-- Entry of a grid. -/
def at? {V : Type} (g : Grid V) (i j : Nat) : Option V := (g[i]?).bind (fun r => r[j]?)

/-- The total of a histogram. -/
def gridSum {V : Type} [AddCommMonoid V] (g : Grid V) : V := (g.map List.sum).sum

/-- The Poisson log likelihood of counts `d` for expectations `m`, without the term that depends on the counts alone. -/
noncomputable def poissonValue (ds ms : List ℝ) : ℝ := (List.zipWith (fun d m => d * Real.log m - m) ds ms).sum

/-- The probability of independent Poisson counts. -/
noncomputable def poissonProb (ns : List ℕ) (ms : List ℝ) : ℝ :=
  (List.zipWith (fun n m => Real.exp (-m) * m ^ n / (n.factorial : ℝ)) ns ms).prod

/-- The density of two half normal distributions joined at `mu`, with widths `sn` below and `sp` above. -/
noncomputable def twoHalfDensity (mu sp sn x : ℝ) : ℝ :=
  2 / ((sp + sn) * √(2 * Real.pi)) * Real.exp (-((x - mu) / (if x < mu then sn else sp)) ^ 2 / 2)

/-- An efficiency a component may give: NaN or a number that is not negative. -/
def GoodEff (x : XF) : Prop := x = .nan ∨ ∃ a : ℝ, 0 ≤ a ∧ x = .fin a

/-- The position is not within the measured energies. -/
def OutsideBand (xs : List ℝ) (x : XF) : Prop :=
  ∀ a b r, xs.head? = some a → xs.getLast? = some b → x = .fin r → r < a ∨ b < r

end Verif.Llh
