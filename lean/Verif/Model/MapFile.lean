/-
Model of `Map.build`, `build_point`, `build_regbin`, `_get_regbin_interpolator` and `map_regbin` of
`appletree/config.py` 201-361 on the parsed contents of a map file.

Simplified: numbers are real numbers; a file's array has as many axes as its list of lower edges and its lists of upper and
lower edges are equally long; other shapes raise in JAX.  Values that are neither a string nor a list under
`coordinate_type` fall under the last branch like an unknown string.
-/
import Verif.Model.Interp

namespace Verif.MapFile
open Verif Verif.Interp

/-- The value under `coordinate_type` (config.py 215-229): a string or a list with one entry per axis. -/
inductive CoordType
  | one (s : String)
  | axes (l : List String)
deriving DecidableEq

/-- The value under `coordinate_name` (config.py 235, 292): a string or a list of strings. -/
inductive CoordName
  | one (s : String)
  | axes (l : List String)
deriving DecidableEq

/-- The numbers of a file: `coordinate_system` and `map` of a point map (config.py 245-251), or `coordinate_lowers`,
`coordinate_uppers` and `map` of a regular binning (config.py 303-305). -/
inductive Body
  | point (coords map : List ℝ)
  | reg1 (a : Axis ℝ) (map : List ℝ)
  | reg2 (a0 a1 : Axis ℝ) (map : Grid2 ℝ)
  | reg3 (a0 a1 a2 : Axis ℝ) (map : Grid3 ℝ)
  | reg0
  | many (a0 a1 a2 a3 : Axis ℝ) (rest : List (Axis ℝ))

/-- A parsed file (config.py 209-213); `none` for a missing key. -/
structure File where
  ctype : Option CoordType
  cname : Option CoordName
  body : Body

/-- The function `apply` after a successful build: of one, two or three coordinates. -/
inductive Built
  | of1 (f : ℝ → Res ℝ)
  | of2 (f : ℝ → ℝ → Res ℝ)
  | of3 (f : ℝ → ℝ → ℝ → Res ℝ)

/-- The edges of a regular binning; a point map has no `coordinate_lowers` (config.py 276). -/
def Body.edges : Body → Option (List (Axis ℝ))
  | .point .. => none
  | .reg1 a _ => some [a]
  | .reg2 a0 a1 _ => some [a0, a1]
  | .reg3 a0 a1 a2 _ => some [a0, a1, a2]
  | .reg0 => some []
  | .many a0 a1 a2 a3 rest => some (a0 :: a1 :: a2 :: a3 :: rest)

/-- The table of a point map after the conversion of a pdf (config.py 243-251).  Tables of different lengths cannot be
multiplied in the conversion. -/
noncomputable def pointTable (n : CoordName) (coords map : List ℝ) : Res (List ℝ × List ℝ) :=
  if n = .one "pdf" then
    if coords.length = map.length then
      match pdfToCdf (coords.zip map) with
      | .error e => .error e
      | .ok r => .ok (r.2, r.1)
    else .error .valueError
  else .ok (coords, map)

/-- `apply` of a point map is a function of one coordinate (config.py 262-270). -/
def ofPoint : Res (ℝ → ℝ) → Res Built
  | .error e => .error e
  | .ok f => .ok (.of1 (fun x => .ok (f x)))

/-- `build_point` (config.py 233-262) and `map_point` (config.py 264-270).  `isLog` says whether the type is `log_point`. -/
noncomputable def buildPoint (method : String) (isLog : Bool) (name : Option CoordName) (body : Body) : Res Built :=
  match name with
  | none => .error .keyError
  | some n =>
    if (n = .one "pdf" ∨ n = .one "cdf") ∧ isLog = true then .error .valueError
    else
      match body with
      | .point coords map =>
        match pointTable n coords map with
        | .error e => .error e
        | .ok t => ofPoint (Interp.buildPoint method isLog t.1 t.2)
      | _ => .error .keyError

/-- `_is_log_axis` of a regular binning with `n` axes (config.py 278-289). -/
def logAxes : CoordType → Nat → Res (List Bool)
  | .axes l, n => if l.length ≠ n then .error .valueError else .ok (l.map (fun c => c == "log_regbin"))
  | .one s, n => .ok (List.replicate n (s == "log_regbin"))

/-- The loop over names (config.py 293-300): `enumerate` with an index into the flags. -/
def checkNames (flags : List Bool) : Nat → List String → Res Unit
  | _, [] => .ok ()
  | i, name :: l =>
    if name = "pdf" ∨ name = "cdf" then
      match flags[i]? with
      | none => .error .indexError
      | some true => .error .valueError
      | some false => checkNames flags (i + 1) l
    else checkNames flags (i + 1) l

/-- The test of the names of a regular binning (config.py 292-300).  A single string is enumerated character by character, and
no character equals `pdf` or `cdf`. -/
def namesOk (flags : List Bool) : CoordName → Res Unit
  | .one _ => .ok ()
  | .axes l => if "pdf" ∈ l ∨ "cdf" ∈ l then checkNames flags 0 l else .ok ()

/-- `map_regbin` (config.py 354-361) with the interpolator of the method (config.py 190-197, 343-352).
`map_interpolator_regular_binning_1d` (interpolation.py 97-115) gives `linspace` arrays of shape `(1,)`, hence
`searchsorted` a table with two axes, which raises. -/
noncomputable def applyRegbin (method : String) (flags : List Bool) : Body → Option Built
  | .reg1 _ _ => some (.of1 (fun _ => .error .valueError))
  | .reg2 a0 a1 g =>
    let l0 := flags.getD 0 false
    let l1 := flags.getD 1 false
    let p := fun (l : Bool) (a : Axis ℝ) => (⟨preprocess l a.lo, preprocess l a.hi⟩ : Axis ℝ)
    match method with
    | "IDW" => some (.of2 (fun x y => .ok (idw2d g (p l0 a0) (p l1 a1) (preprocess l0 x) (preprocess l1 y))))
    | "LERP" => some (.of2 (fun x y => .ok (bilinear g (p l0 a0) (p l1 a1) (preprocess l0 x) (preprocess l1 y))))
    | "NN" => some (.of2 (fun x y => .ok (nn2d g (p l0 a0) (p l1 a1) (preprocess l0 x) (preprocess l1 y))))
    | _ => none
  | .reg3 a0 a1 a2 g =>
    let l0 := flags.getD 0 false
    let l1 := flags.getD 1 false
    let l2 := flags.getD 2 false
    let p := fun (l : Bool) (a : Axis ℝ) => (⟨preprocess l a.lo, preprocess l a.hi⟩ : Axis ℝ)
    match method with
    | "IDW" => some (.of3 (fun x y z => .ok (idw3d g (p l0 a0) (p l1 a1) (p l2 a2) (preprocess l0 x) (preprocess l1 y) (preprocess l2 z))))
    | "LERP" => some (.of3 (fun x y z => .ok (trilinear g (p l0 a0) (p l1 a1) (p l2 a2) (preprocess l0 x) (preprocess l1 y) (preprocess l2 z))))
    | "NN" => some (.of3 (fun x y z => .ok (nn3d g (p l0 a0) (p l1 a1) (p l2 a2) (preprocess l0 x) (preprocess l1 y) (preprocess l2 z))))
    | _ => none
  | _ => none

/-- `build_regbin` (config.py 272-314). -/
noncomputable def buildRegbin (method : String) (ct : CoordType) (name : Option CoordName) (body : Body) : Res Built :=
  match body.edges with
  | none => .error .keyError
  | some axes =>
    match logAxes ct axes.length with
    | .error e => .error e
    | .ok flags =>
      match name with
      | none => .error .keyError
      | some n =>
        match namesOk flags n with
        | .error e => .error e
        | .ok () =>
          match applyRegbin method flags body with
          | none => .error .valueError
          | some b =>
            match validateRegbin flags axes with
            | .error e => .error e
            | .ok () => .ok b

/-- `Map.build` after the file was loaded (config.py 215-231). -/
noncomputable def build (method : String) (f : File) : Res Built :=
  match f.ctype with
  | none => .error .keyError
  | some (.axes l) =>
    if ∃ c ∈ l, c ≠ "regbin" ∧ c ≠ "log_regbin" then .error .valueError
    else buildRegbin method (.axes l) f.cname f.body
  | some (.one s) =>
    if s = "point" ∨ s = "log_point" then buildPoint method (s == "log_point") f.cname f.body
    else if s = "regbin" ∨ s = "log_regbin" then buildRegbin method (.one s) f.cname f.body
    else .error .valueError

end Verif.MapFile
