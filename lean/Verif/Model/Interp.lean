/-
Model of `appletree/interpolation.py` and of the map arithmetic of `appletree/config.py` 264-270, 320-376.

Arithmetic is exact over an ordered field (ℝ where square roots or logarithms occur).  Positions are handled one at a
time.  External behaviour modelled here (JAX): `jnp.clip(x, a, b)` is `minimum(maximum(x, a), b)`; gather indices wrap
once when negative and are then clamped; `argmin` returns the first index of a minimum; `lax.top_k` orders equal values
by index; `jnp.interp` as in the JAX source, with its test for `dx` near zero taken as `dx = 0`.
-/
import Verif.Base.Py
import Verif.Base.XF
import Mathlib.Algebra.Order.Floor.Ring
import Mathlib.Analysis.Real.Sqrt
import Mathlib.Analysis.SpecialFunctions.Log.Base

namespace Verif.Interp
open Verif

section
variable {F : Type} [Field F] [LinearOrder F]

/-- `jnp.clip(x, lo, hi)`. -/
def clip {α : Type} [LinearOrder α] (x lo hi : α) : α := min (max x lo) hi

/-- `a[i]` for a one-dimensional array and a non-negative index, clamped. -/
def gather (l : List F) (i : Nat) : F := l.getD (min i (l.length - 1)) 0

/-- The position used for index `i` along an axis with `n` entries. -/
def wrap (n : Nat) (i : Int) : Nat :=
  let j := if i < 0 then i + n else i
  (clip j 0 (n - 1)).toNat

/-- `curve_interpolator` (interpolation.py 60-94) at one position. -/
def curve (ref val : List F) (x : F) : F :=
  let r := ref.countP (fun b => decide (b < x))
  let right := min r (ref.length - 1)
  let left := min (r - 1) (ref.length - 1)
  let dr := |x - gather ref right|
  let dl := |x - gather ref left|
  if 0 < dr + dl then (gather val right * dl + gather val left * dr) / (dr + dl) else gather val right

/-- `map_interpolator_linear_1d` (interpolation.py 340-354), that is `jnp.interp`, for at least two points. -/
def linear1d (ref val : List F) (x : F) : F :=
  let i := min (max (ref.countP (fun b => decide (b ≤ x))) 1) (ref.length - 1)
  let df := gather val i - gather val (i - 1)
  let dx := gather ref i - gather ref (i - 1)
  let delta := x - gather ref (i - 1)
  let f := if dx = 0 then gather val i else gather val (i - 1) + delta / dx * df
  if x < gather ref 0 then gather val 0
  else if gather ref (ref.length - 1) < x then gather val (ref.length - 1)
  else f

/-- `jnp.argmin` of a nonempty array: first index of the smallest entry. -/
def argmin : List F → Nat
  | [] => 0
  | [_] => 0
  | a :: b :: l =>
    let j := argmin (b :: l)
    if (b :: l).getD j 0 < a then j + 1 else 0

/-- `find_nearest_indices` (interpolation.py 332-337) at one position. -/
def nearest (x : F) (y : List F) : Nat := argmin (y.map (fun b => |x - b|))

/-- `map_interpolator_nearest_neighbor_1d` (interpolation.py 357-375). -/
def nn1d (ref val : List F) (x : F) : F := gather val (nearest x ref)

/-- `jnp.linspace(lo, hi, n)`. -/
def linspace (lo hi : F) (n : Nat) : List F :=
  (List.range n).map (fun i : Nat => lo + (hi - lo) / ((n : F) - 1) * (i : F))

/-- A two-dimensional map array with its shape. -/
structure Grid2 (F : Type) where
  n0 : Nat
  n1 : Nat
  val : Nat → Nat → F

/-- A three-dimensional map array with its shape. -/
structure Grid3 (F : Type) where
  n0 : Nat
  n1 : Nat
  n2 : Nat
  val : Nat → Nat → Nat → F

/-- One axis: lower and upper edge. -/
structure Axis (F : Type) where
  lo : F
  hi : F

/-- `map_interpolator_regular_binning_nearest_neighbor_2d` (interpolation.py 378-405). -/
def nn2d (g : Grid2 F) (a0 a1 : Axis F) (x y : F) : F :=
  g.val (wrap g.n0 (nearest x (linspace a0.lo a0.hi g.n0))) (wrap g.n1 (nearest y (linspace a1.lo a1.hi g.n1)))

/-- `map_interpolator_regular_binning_nearest_neighbor_3d` (interpolation.py 408-434). -/
def nn3d (g : Grid3 F) (a0 a1 a2 : Axis F) (x y z : F) : F :=
  g.val (wrap g.n0 (nearest x (linspace a0.lo a0.hi g.n0))) (wrap g.n1 (nearest y (linspace a1.lo a1.hi g.n1)))
    (wrap g.n2 (nearest z (linspace a2.lo a2.hi g.n2)))

/-- `bin_sizes` (interpolation.py 134, 181, 267, 303). -/
def binSize (n : Nat) (a : Axis F) : F := (a.hi - a.lo) / ((n : F) - 1)

/-- `frac` (interpolation.py 268, 304). -/
def frac (n : Nat) (a : Axis F) (x : F) : F := (x - a.lo) / binSize n a

section
variable [FloorRing F]

/-- `i0` (interpolation.py 270-271, 306-308). -/
def cell (n : Nat) (f : F) : Int := clip ⌊f⌋ 0 ((n : Int) - 2)

/-- `t` (interpolation.py 272-273, 309-311). -/
def offset (n : Nat) (f : F) : F := clip (f - (cell n f : F)) 0 1

/-- `map_interpolator_regular_binning_bilinear_2d` (interpolation.py 248-281). -/
def bilinear (g : Grid2 F) (a0 a1 : Axis F) (x y : F) : F :=
  let i0 := cell g.n0 (frac g.n0 a0 x)
  let j0 := cell g.n1 (frac g.n1 a1 y)
  let t := offset g.n0 (frac g.n0 a0 x)
  let u := offset g.n1 (frac g.n1 a1 y)
  let v00 := g.val (wrap g.n0 i0) (wrap g.n1 j0)
  let v10 := g.val (wrap g.n0 (i0 + 1)) (wrap g.n1 j0)
  let v01 := g.val (wrap g.n0 i0) (wrap g.n1 (j0 + 1))
  let v11 := g.val (wrap g.n0 (i0 + 1)) (wrap g.n1 (j0 + 1))
  (1 - t) * (1 - u) * v00 + t * (1 - u) * v10 + (1 - t) * u * v01 + t * u * v11

/-- `map_interpolator_regular_binning_trilinear_3d` (interpolation.py 284-329). -/
def trilinear (g : Grid3 F) (a0 a1 a2 : Axis F) (x y z : F) : F :=
  let i0 := cell g.n0 (frac g.n0 a0 x)
  let j0 := cell g.n1 (frac g.n1 a1 y)
  let k0 := cell g.n2 (frac g.n2 a2 z)
  let t := offset g.n0 (frac g.n0 a0 x)
  let u := offset g.n1 (frac g.n1 a1 y)
  let w := offset g.n2 (frac g.n2 a2 z)
  let at' := fun i j k => g.val (wrap g.n0 i) (wrap g.n1 j) (wrap g.n2 k)
  let v000 := at' i0 j0 k0
  let v100 := at' (i0 + 1) j0 k0
  let v010 := at' i0 (j0 + 1) k0
  let v110 := at' (i0 + 1) (j0 + 1) k0
  let v001 := at' i0 j0 (k0 + 1)
  let v101 := at' (i0 + 1) j0 (k0 + 1)
  let v011 := at' i0 (j0 + 1) (k0 + 1)
  let v111 := at' (i0 + 1) (j0 + 1) (k0 + 1)
  let c00 := (1 - t) * v000 + t * v100
  let c10 := (1 - t) * v010 + t * v110
  let c01 := (1 - t) * v001 + t * v101
  let c11 := (1 - t) * v011 + t * v111
  let c0 := (1 - u) * c00 + u * c10
  let c1 := (1 - u) * c01 + u * c11
  (1 - w) * c0 + w * c1

/-- `ind1` along one axis (interpolation.py 138-140, 185-187). -/
def idwIndex (n : Nat) (a : Axis F) (x : F) : Int := clip ⌊frac n a x⌋ 0 ((n : Int) - 1)

end
end

/-! ### Inverse distance weighting -/

/-- `FLOAT_POS_MIN` (interpolation.py 10): the smallest normal float32. -/
noncomputable def floatPosMin : ℝ := 1 / 2 ^ 126

/-- `FLOAT_POS_MAX` (interpolation.py 11): the largest float32. -/
noncomputable def floatPosMax : ℝ := 2 ^ 128 - 2 ^ 104

/-- `(val1 / dr1 + ...) / (1 / dr1 + ...)` on pairs of value and distance (interpolation.py 160-161, 222-243). -/
noncomputable def weighted (vd : List (ℝ × ℝ)) : ℝ :=
  (vd.map (fun p => p.1 / p.2)).sum / (vd.map (fun p => 1 / p.2)).sum

/-- `ind1` to `ind4` (interpolation.py 138-143). -/
def corners2 (i : Int × Int) : List (Int × Int) :=
  let ind1 := i
  let ind2 := (ind1.1 + 1, ind1.2)
  let ind3 := (ind1.1, ind1.2 + 1)
  let ind4 := (ind2.1, ind2.2 + 1)
  [ind1, ind2, ind3, ind4]

/-- `ind1` to `ind8` (interpolation.py 185-194). -/
def corners3 (i : Int × Int × Int) : List (Int × Int × Int) :=
  let ind1 := i
  let ind2 := (ind1.1 + 1, ind1.2.1, ind1.2.2)
  let ind3 := (ind1.1, ind1.2.1 + 1, ind1.2.2)
  let ind4 := (ind1.1, ind1.2.1, ind1.2.2 + 1)
  let ind5 := (ind2.1, ind2.2.1 + 1, ind2.2.2)
  let ind6 := (ind3.1, ind3.2.1, ind3.2.2 + 1)
  let ind7 := (ind4.1 + 1, ind4.2.1, ind4.2.2)
  let ind8 := (ind7.1, ind7.2.1 + 1, ind7.2.2)
  [ind1, ind2, ind3, ind4, ind5, ind6, ind7, ind8]

/-- `ref_pos` of an index along one axis (interpolation.py 150-153, 205-212). -/
noncomputable def refPos (n : Nat) (a : Axis ℝ) (i : Int) : ℝ := a.lo + binSize n a * (i : ℝ)

/-- `map_interpolator_regular_binning_2d` (interpolation.py 118-163). -/
noncomputable def idw2d (g : Grid2 ℝ) (a0 a1 : Axis ℝ) (x y : ℝ) : ℝ :=
  weighted ((corners2 (idwIndex g.n0 a0 x, idwIndex g.n1 a1 y)).map (fun i =>
    (g.val (wrap g.n0 i.1) (wrap g.n1 i.2),
     clip (√((refPos g.n0 a0 i.1 - x) ^ 2 + (refPos g.n1 a1 i.2 - y) ^ 2)) floatPosMin floatPosMax)))

/-- `map_interpolator_regular_binning_3d` (interpolation.py 166-245). -/
noncomputable def idw3d (g : Grid3 ℝ) (a0 a1 a2 : Axis ℝ) (x y z : ℝ) : ℝ :=
  weighted ((corners3 (idwIndex g.n0 a0 x, idwIndex g.n1 a1 y, idwIndex g.n2 a2 z)).map (fun i =>
    (g.val (wrap g.n0 i.1) (wrap g.n1 i.2.1) (wrap g.n2 i.2.2),
     clip (√((refPos g.n0 a0 i.1 - x) ^ 2 + (refPos g.n1 a1 i.2.1 - y) ^ 2 + (refPos g.n2 a2 i.2.2 - z) ^ 2))
       floatPosMin floatPosMax)))

/-- `_L2_dist2` (interpolation.py 14-27) of two points. -/
noncomputable def dist2 (p q : List ℝ) : ℝ := ((p.zip q).map (fun e => (e.1 - e.2) * (e.1 - e.2))).sum

open Classical in
/-- `lax.top_k(-dist2, k)` (interpolation.py 51-52): the `k` nearest reference points, nearest first. -/
noncomputable def topK (pos : List ℝ) (ref : List (List ℝ × ℝ)) (k : Nat) : List (List ℝ × ℝ) :=
  (ref.mergeSort (fun a b => decide (dist2 pos a.1 ≤ dist2 pos b.1))).take k

/-- `map_interpolator_knn` (interpolation.py 30-57) at one position; `top_k` raises for `k` above the number of
points. -/
noncomputable def knn (pos : List ℝ) (ref : List (List ℝ × ℝ)) (k : Nat) : Res ℝ :=
  if ref.length < k then .error .valueError
  else
    let ws := (topK pos ref k).map (fun q => (q.2, 1 / max (√(dist2 pos q.1)) (1 / 1000000)))
    .ok ((ws.map (fun p => p.1 * p.2)).sum / (ws.map Prod.snd).sum)

/-! ### Overflow of float32 in the inverse-distance average -/

/-- A float32 result: beyond the largest value it is infinite.  Rounding is left out. -/
noncomputable def f32 : XF → XF
  | .fin x => if 2 ^ 128 ≤ x then .pinf else if x ≤ -2 ^ 128 then .ninf else .fin x
  | a => a

/-- The same average as `weighted`, with every intermediate result a float32. -/
noncomputable def weighted32 (vd : List (ℝ × ℝ)) : XF :=
  f32 ((vd.map (fun p => f32 (.fin p.1 / .fin p.2))).foldl (fun s t => f32 (s + t)) (.fin 0) /
    (vd.map (fun p => f32 (.fin 1 / .fin p.2))).foldl (fun s t => f32 (s + t)) (.fin 0))

/-- `map_interpolator_regular_binning_2d` (interpolation.py 118-163) with a float32 average. -/
noncomputable def idw2d32 (g : Grid2 ℝ) (a0 a1 : Axis ℝ) (x y : ℝ) : XF :=
  weighted32 ((corners2 (idwIndex g.n0 a0 x, idwIndex g.n1 a1 y)).map (fun i =>
    (g.val (wrap g.n0 i.1) (wrap g.n1 i.2),
     clip (√((refPos g.n0 a0 i.1 - x) ^ 2 + (refPos g.n1 a1 i.2 - y) ^ 2)) floatPosMin floatPosMax)))

/-! ### Logarithmic axes -/

/-- `preprocess` (config.py 362-369) of one coordinate on an axis with the given flag. -/
noncomputable def preprocess (isLog : Bool) (x : ℝ) : ℝ :=
  let safe := if isLog then x else 1
  let logVal := Real.logb 10 (clip safe floatPosMin floatPosMax)
  if isLog then logVal else x

/-- `_validate_log_coords` (config.py 320-341) for a table with one axis. -/
noncomputable def validatePoint (isLog : Bool) (coords : List ℝ) : Res Unit :=
  if isLog && decide (∃ a ∈ coords, a ≤ 0) then .error .valueError else .ok ()

/-- `_validate_log_coords` (config.py 320-341) for lower and upper edges of several axes. -/
noncomputable def validateRegbin (isLog : List Bool) (axes : List (Axis ℝ)) : Res Unit :=
  if decide (∃ p ∈ isLog.zip axes, p.1 = true ∧ (p.2.lo ≤ 0 ∨ p.2.hi ≤ 0)) then .error .valueError else .ok ()

/-- The methods of a point map (config.py 184-188). -/
noncomputable def pointMethod : String → Option (List ℝ → List ℝ → ℝ → ℝ)
  | "IDW" => some curve
  | "NN" => some nn1d
  | "LERP" => some linear1d
  | _ => none

/-- `build_point` (config.py 233-262) followed by `map_point` (config.py 264-270): building raises or gives the
function applied to positions.  Coordinate names other than pdf and cdf. -/
noncomputable def buildPoint (method : String) (isLog : Bool) (coords map : List ℝ) : Res (ℝ → ℝ) :=
  match pointMethod method with
  | none => .error .valueError
  | some f =>
    match validatePoint isLog coords with
    | .error e => .error e
    | .ok () => .ok (fun x => f (coords.map (preprocess isLog)) (map.map (preprocess isLog)) (preprocess isLog x))

/-! ### From pdf to cdf -/

section
variable {F : Type} [Field F]

/-- `np.cumsum`. -/
def cumsum (acc : F) : List F → List F
  | [] => []
  | x :: l => (acc + x) :: cumsum (acc + x) l

/-- `dx * y_mid` (utils.py 638-641). -/
def segments : List (F × F) → List F
  | p :: q :: l => (q.1 - p.1) * (1 / 2 * (q.2 + p.2)) :: segments (q :: l)
  | _ => []

/-- `x_mid` (utils.py 639). -/
def midpoints : List (F × F) → List F
  | p :: q :: l => (1 / 2 * (q.1 + p.1)) :: midpoints (q :: l)
  | _ => []

/-- `cumulative_integrate_midpoint` (utils.py 628-641). -/
def cumulativeIntegrate (xy : List (F × F)) : List F × List F := (midpoints xy, cumsum 0 (segments xy))

/-- `integrate_midpoint` (utils.py 616-625). -/
def integrate (xy : List (F × F)) : Res F :=
  match (cumulativeIntegrate xy).2.getLast? with
  | some s => .ok s
  | none => .error .indexError

/-- `pdf_to_cdf` (config.py 371-376). -/
def pdfToCdf (xy : List (F × F)) : Res (List F × List F) :=
  match integrate xy with
  | .error e => .error e
  | .ok norm =>
    let r := cumulativeIntegrate xy
    .ok (r.1, r.2.map (· / norm))

end
end Verif.Interp
