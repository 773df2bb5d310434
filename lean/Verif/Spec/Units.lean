/-
Vocabulary for C135: the same quantities in other units.
-/
import Verif.Spec.Flow

namespace Verif.Llh
open Verif Comp

/-- Other units: how the values of each quantity are converted and converted back.  Larger values stay larger; probabilities have no unit. -/
structure Units where
  conv : String → ℝ → ℝ
  back : String → ℝ → ℝ
  mono : ∀ d, StrictMono (conv d)
  back_conv : ∀ d x, back d (conv d x) = x
  eff : conv "eff" = id

/-- The conversion of each axis of a histogram. -/
def Units.axes (U : Units) (on : List String) (i : Nat) : ℝ → ℝ := U.conv ((on[i]?).getD "")

/-- The value of a quantity in the other units. -/
def Units.val (U : Units) (d : String) : PVal → PVal
  | .col c => .col (c.map (U.conv d))
  | .int n => .int n

/-- A value in the other units converted back. -/
def Units.unval (U : Units) (d : String) : PVal → PVal
  | .col c => .col (c.map (U.back d))
  | .int n => .int n

section
variable {F : Type}

/-- Columns, with every axis converted. -/
def colsIn (t : Nat → F → F) (cols : List (List F)) : List (List F) := cols.mapIdx (fun i c => c.map (t i))

/-- Rows of a data file, with every axis converted; a missing value stays missing. -/
def rowIn (t : Nat → F → F) (row : List (Option F)) : List (Option F) := row.mapIdx (fun i v => v.map (t i))

/-- Bins with converted edges. -/
def binsIn (t : Nat → F → F) : Bins F → Bins F
  | .irreg1 e => .irreg1 (e.map (t 0))
  | .irreg2 x y => .irreg2 (x.map (t 0)) (y.map (fun r => r.map (t 1)))
  | .mesh1 e => .mesh1 (e.map (t 0))
  | .mesh2 x y => .mesh2 (x.map (t 0)) (y.map (t 1))
  | .irregOther n => .irregOther n
  | .unset n => .unset n

/-- The bins asked for in a configuration, with converted edges; a number of bins stays. -/
def specIn (t : F → F) : BinSpec F → BinSpec F
  | .int n => .int n
  | .edges e => .edges (e.map t)
  | .rows r => .rows (r.map (fun e => e.map t))

def binsValIn (t : Nat → F → F) : BinsVal F → BinsVal F
  | .int n => .int n
  | .list l => .list (l.mapIdx (fun i s => specIn (t i) s))
  | .other => .other

/-- A range with converted ends. -/
def clipIn (t : F → F) (c : F × F) : F × F := (t c.1, t c.2)

/-- The configuration of a likelihood with converted edges and ranges. -/
def configIn (t : Nat → F → F) (cfg : Config F) : Config F :=
  { cfg with bins := binsValIn t cfg.bins, clip := cfg.clip.map (clipIn (t 0)), xClip := cfg.xClip.map (clipIn (t 0)),
             yClip := cfg.yClip.map (clipIn (t 1)) }

/-- A data file in other units. -/
def loadIn (t : Nat → F → F) (load : List String → Res (List (List (Option F)))) (on : List String) : Res (List (List (Option F))) :=
  (load on).map (fun rows => rows.map (rowIn t))

/-- All edges are written out. -/
def Explicit : BinsVal F → Prop
  | .list l => ∀ s ∈ l, ∀ n, s ≠ .int n
  | _ => False

/-- A change of scale and origin. -/
def Affine [Field F] (f : F → F) : Prop := ∃ a c, ∀ x, f x = a * x + c

/-- The edges found for the converted data are the converted edges. -/
structure Follows (t : Nat → F → F) (eq eq' : Equi F) : Prop where
  one : ∀ rows n, eq'.inner1 (rows.map (rowIn t)) n = (eq.inner1 rows n).map (t 0)
  two : ∀ rows n m, eq'.inner2 (rows.map (rowIn t)) n m
    = ((eq.inner2 rows n m).1.map (t 0), (eq.inner2 rows n m).2.map (fun r => r.map (t 1)))

/-- The same sample in other units. -/
def Sample.inUnits (t : Nat → F → F) (s : Sample F) : Sample F :=
  { s with cfg := { s.cfg with bins := binsIn t s.cfg.bins }, cols := colsIn t s.cols }

/-- The same component in other units. -/
def Part.inUnits (t : Nat → ℝ → ℝ) : Part → Part
  | .sim a => .sim a
  | .fixed name data n => .fixed name (colsIn t data) n

end

/-- The same model in other units: every plugin takes and gives its quantities in them, and the edges of the bins are converted. -/
def Setup.inUnits {K : Type} (U : Units) (S : Setup K) : Setup K :=
  { S with
    cfg := fun n => { S.cfg n with bins := binsIn (U.axes S.binsOn) (S.cfg n).bins }
    sem := fun q p k args => (S.sem q p k (List.zipWith U.unval p.dependsOn args)).map
      (fun r => (r.1, List.zipWith U.val p.provides r.2)) }

end Verif.Llh
