/-
Maps in single precision.  The exact versions are in `Model/Interp.lean`.
External behaviour modelled here: each arithmetic operation of `jax.numpy` returns the exact result rounded to 24 significant binary
digits (`Single.rnd`); neither overflow nor underflow is modelled, and the compiler neither fuses nor reorders operations.  Absolute
values, comparisons, `floor` and `clip` are exact.
-/
import Verif.Model.Single
import Verif.Model.Interp

namespace Verif.SingleMaps
open Verif Verif.Single Verif.Interp

/-- `curve_interpolator` (interpolation.py 60-94) at one position, in single precision. -/
noncomputable def curve32 (ref val : List ℝ) (x : ℝ) : ℝ :=
  let r := ref.countP (fun b => decide (b < x))
  let right := min r (ref.length - 1)
  let left := min (r - 1) (ref.length - 1)
  let dr := |rnd (x - gather ref right)|
  let dl := |rnd (x - gather ref left)|
  if 0 < rnd (dr + dl) then rnd (rnd (rnd (gather val right * dl) + rnd (gather val left * dr)) / rnd (dr + dl)) else gather val right

/-- A point map built from a file (config.py 252-253: `jnp.asarray` of coordinates and values) and evaluated at one position: all numbers are
stored in single precision. -/
noncomputable def pointMap32 (ref val : List ℝ) (x : ℝ) : ℝ := curve32 (ref.map rnd) (val.map rnd) (rnd x)

/-- `frac` (interpolation.py 266-268, 302-304) in single precision. -/
noncomputable def frac32 (n : Nat) (a : Axis ℝ) (x : ℝ) : ℝ := rnd (rnd (x - a.lo) / rnd (rnd (a.hi - a.lo) / ((n : ℝ) - 1)))

/-- `t`, `u` and `w` (interpolation.py 272-273, 309-311) in single precision. -/
noncomputable def offset32 (n : Nat) (f : ℝ) : ℝ := clip (rnd (f - (cell n f : ℝ))) 0 1

/-- `map_interpolator_regular_binning_bilinear_2d` (interpolation.py 248-281) in single precision. -/
noncomputable def bilinear32 (g : Grid2 ℝ) (a0 a1 : Axis ℝ) (x y : ℝ) : ℝ :=
  let i0 := cell g.n0 (frac32 g.n0 a0 x)
  let j0 := cell g.n1 (frac32 g.n1 a1 y)
  let t := offset32 g.n0 (frac32 g.n0 a0 x)
  let u := offset32 g.n1 (frac32 g.n1 a1 y)
  let v00 := g.val (wrap g.n0 i0) (wrap g.n1 j0)
  let v10 := g.val (wrap g.n0 (i0 + 1)) (wrap g.n1 j0)
  let v01 := g.val (wrap g.n0 i0) (wrap g.n1 (j0 + 1))
  let v11 := g.val (wrap g.n0 (i0 + 1)) (wrap g.n1 (j0 + 1))
  rnd (rnd (rnd (rnd (rnd (rnd (1 - t) * rnd (1 - u)) * v00) + rnd (rnd (t * rnd (1 - u)) * v10)) + rnd (rnd (rnd (1 - t) * u) * v01))
    + rnd (rnd (t * u) * v11))

/-- One blend (interpolation.py 323-329) in single precision. -/
noncomputable def blend32 (t a b : ℝ) : ℝ := rnd (rnd (rnd (1 - t) * a) + rnd (t * b))

/-- `map_interpolator_regular_binning_trilinear_3d` (interpolation.py 284-329) in single precision. -/
noncomputable def trilinear32 (g : Grid3 ℝ) (a0 a1 a2 : Axis ℝ) (x y z : ℝ) : ℝ :=
  let i0 := cell g.n0 (frac32 g.n0 a0 x)
  let j0 := cell g.n1 (frac32 g.n1 a1 y)
  let k0 := cell g.n2 (frac32 g.n2 a2 z)
  let t := offset32 g.n0 (frac32 g.n0 a0 x)
  let u := offset32 g.n1 (frac32 g.n1 a1 y)
  let w := offset32 g.n2 (frac32 g.n2 a2 z)
  let at' := fun i j k => g.val (wrap g.n0 i) (wrap g.n1 j) (wrap g.n2 k)
  let c00 := blend32 t (at' i0 j0 k0) (at' (i0 + 1) j0 k0)
  let c10 := blend32 t (at' i0 (j0 + 1) k0) (at' (i0 + 1) (j0 + 1) k0)
  let c01 := blend32 t (at' i0 j0 (k0 + 1)) (at' (i0 + 1) j0 (k0 + 1))
  let c11 := blend32 t (at' i0 (j0 + 1) (k0 + 1)) (at' (i0 + 1) (j0 + 1) (k0 + 1))
  let c0 := blend32 u c00 c10
  let c1 := blend32 u c01 c11
  blend32 w c0 c1

end Verif.SingleMaps
