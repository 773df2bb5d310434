/-
Model of `appletree/hist.py`.

Coordinates are values of an arbitrary linear order `K` or NaN (`none`); weights live in an arbitrary
type `W` with a sum and a zero: a commutative monoid, so that nothing is rounded, except in `Model/Single.lean`.  Only comparisons
act on coordinates.
External behaviour modelled here (JAX):
* `jnp.searchsorted(a, v)` on an ascending array is the number of entries below `v`
  (`side='left'`) or not above `v` (`side='right'`); NaN sorts after everything;
* gather indices are normalised python-style when negative and then clamped;
* `.at[i].add(w)` adds in turn for repeated indices;
* `jnp.histogramdd` uses `side='right'`, moves values equal to the last edge down one bin,
  and trims the two outlier bins per axis.
-/
import Verif.Base.Py
import Mathlib.Order.Defs.LinearOrder
import Mathlib.Algebra.BigOperators.Group.List.Basic

namespace Verif.Hist
open Verif

variable {K W : Type*} [LinearOrder K] [Add W] [Zero W]

/-- `jnp.searchsorted(bins, x)` (side left), used at hist.py 29, 53, 54. -/
def searchLeft (bins : List K) : Option K → Nat
  | none => bins.length
  | some x => bins.countP (fun b => decide (b < x))

/-- `jnp.searchsorted(bins, x, side='right')`, used inside `jnp.histogramdd` (hist.py 13). -/
def searchRight (bins : List K) : Option K → Nat
  | none => bins.length
  | some x => bins.countP (fun b => decide (b ≤ x))

/-- `hist.at[i].add(w)`; an out-of-range index would be dropped. -/
def scatterAdd (h : List W) (i : Nat) (w : W) : List W := h.modify i (· + w)

/-- `hist[1:-1]`. -/
def inner {α : Type*} (l : List α) : List α := l.tail.dropLast

/-- `make_hist_irreg_bin_1d` (hist.py 19-34). `sw` pairs samples with weights. -/
def hist1d (bins : List K) (sw : List (Option K × W)) : List W :=
  inner (sw.foldl (fun h p => scatterAdd h (searchLeft bins p.1) p.2)
    (List.replicate (bins.length + 1) 0))

/-- JAX gather along the first axis: negative indices wrap once, then clamp (hist.py 54,
`bins_y[ind_x - 1]`).  An empty table yields an empty row. -/
def gatherRow {α : Type*} (rows : List (List α)) (i : Int) : List α :=
  let n : Int := rows.length
  let j := if i < 0 then i + n else i
  let j := max 0 (min j (n - 1))
  (rows[j.toNat]?).getD []

/-- `hist.at[i, j].add(w)` for a 2D array. -/
def scatterAdd2 (h : List (List W)) (i j : Nat) (w : W) : List (List W) :=
  h.modify i (fun row => scatterAdd row j w)

/-- The two indices of a 2D sample (hist.py 50-56). -/
def index2d (binsX : List K) (binsY : List (List K)) (xy : Option K × Option K) : Nat × Nat :=
  let ix := searchLeft binsX xy.1
  (ix, searchLeft (gatherRow binsY ((ix : Int) - 1)) xy.2)

/-- `make_hist_irreg_bin_2d` (hist.py 39-61); `m2` is `bins_y.shape[-1]`. -/
def hist2d (binsX : List K) (binsY : List (List K)) (m2 : Nat)
    (sw : List ((Option K × Option K) × W)) : List (List W) :=
  (inner (sw.foldl (fun h p =>
      scatterAdd2 h (index2d binsX binsY p.1).1 (index2d binsX binsY p.1).2 p.2)
    (List.replicate (binsX.length + 1) (List.replicate (m2 + 1) 0)))).map inner

/-- Bin index of one coordinate in `jnp.histogramdd` (hist.py 13). -/
def meshIndex (edges : List K) (x : Option K) : Nat :=
  if x.isSome ∧ x = edges.getLast? then searchRight edges x - 1 else searchRight edges x

/-- `make_hist_mesh_grid` in one dimension (hist.py 8-14). -/
def mesh1d (edges : List K) (sw : List (Option K × W)) : List W :=
  inner (sw.foldl (fun h p => scatterAdd h (meshIndex edges p.1) p.2)
    (List.replicate (edges.length + 1) 0))

/-- `make_hist_mesh_grid` in two dimensions (hist.py 8-14). -/
def mesh2d (ex ey : List K) (sw : List ((Option K × Option K) × W)) : List (List W) :=
  (inner (sw.foldl (fun h p => scatterAdd2 h (meshIndex ex p.1.1) (meshIndex ey p.1.2) p.2)
    (List.replicate (ex.length + 1) (List.replicate (ey.length + 1) 0)))).map inner

end Verif.Hist
