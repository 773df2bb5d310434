/-
The histogram functions with coordinates and edges in single precision.  Data are read in double precision (likelihood.py 88) and
compared with the clip in double precision (likelihood.py 89-98), but the arrays that enter the compiled functions of hist.py are
converted to single precision, edges included, as 64-bit mode is off.  The rounding is that of `Model/Single.lean`.
-/
import Verif.Model.Single

namespace Verif.Single
open Verif Hist

variable {W : Type*} [Add W] [Zero W]

/-- `make_hist_irreg_bin_1d` (hist.py 17-34) on double-precision arguments. -/
noncomputable def hist1d32 (bins : List ℝ) (sw : List (Option ℝ × W)) : List W :=
  hist1d (bins.map rnd) (sw.map fun e => (e.1.map rnd, e.2))

/-- `make_hist_irreg_bin_2d` (hist.py 37-61) on double-precision arguments. -/
noncomputable def hist2d32 (bx : List ℝ) (by' : List (List ℝ)) (m2 : Nat) (sw : List ((Option ℝ × Option ℝ) × W)) : List (List W) :=
  hist2d (bx.map rnd) (by'.map (List.map rnd)) m2 (sw.map fun e => ((e.1.1.map rnd, e.1.2.map rnd), e.2))

/-- `make_hist_mesh_grid` (hist.py 9-14) in one dimension. -/
noncomputable def mesh1d32 (bins : List ℝ) (sw : List (Option ℝ × W)) : List W :=
  mesh1d (bins.map rnd) (sw.map fun e => (e.1.map rnd, e.2))

/-- `make_hist_mesh_grid` (hist.py 9-14) in two dimensions. -/
noncomputable def mesh2d32 (ex ey : List ℝ) (sw : List ((Option ℝ × Option ℝ) × W)) : List (List W) :=
  mesh2d (ex.map rnd) (ey.map rnd) (sw.map fun e => ((e.1.1.map rnd, e.1.2.map rnd), e.2))

end Verif.Single
