/-
Model of the pictures drawn by `plot_maps`: `_plot_map_1d_point`, `_plot_map_1d_regbin`, `_plot_map_2d_regbin`,
`_plot_sigma_map_1d_point`, `_plot_sigma_map_1d_regbin`, `_lookup_collapse`, `_plot_config`, `_plot_regular_map` and
`_plot_sigma_map` (plot.py 622-785, 856-1014).

A picture is the data handed to matplotlib.  External behaviour modelled here: `ax.plot` and `ax.fill_between` raise ValueError
for arrays of different lengths; `ax.imshow(a, origin="lower", extent)` divides the extent into one pixel per entry, rows upwards and
columns to the right; `np.interp` is linear between the points and constant outside.
Simplified: numbers are real numbers and a map has one name per axis.
-/
import Verif.Model.MapFile
import Verif.Model.Plot

namespace Verif.MapPic
open Verif Verif.Plot
open Verif.MapFile (CoordType CoordName File Body pointTable)

/-- The attributes of a built map that are drawn (config.py 249-251, 302-305): a table, or an array with the bounds and names of
its axes. -/
inductive Data
  | point (coords map : List ℝ)
  | reg (names : List String) (lowers uppers : List ℝ) (map : NdArr)

/-- A built map: `name`, `coordinate_type`, the name of the coordinate of a table, and the numbers. -/
structure Drawable where
  name : String
  ctype : CoordType
  cname : CoordName
  data : Data

/-- The list of the names of the axes (plot.py 871): a string gives its characters. -/
def nameList : CoordName → List String
  | .axes l => l
  | .one s => s.toList.map (fun c => String.ofList [c])

/-- The attributes after a map was built from a file (config.py 243-251, 302-305).  Files with no axis or more than three do not build. -/
noncomputable def attributes (name : String) (f : File) : Res Drawable :=
  match f.ctype, f.cname with
  | some ct, some cn => match f.body with
    | .point x y => (pointTable cn x y).map (fun t => ⟨name, ct, if cn = .one "pdf" then .one "cdf" else cn, .point t.1 t.2⟩)
    | .reg1 a m => .ok ⟨name, ct, cn, .reg (nameList cn) [a.lo] [a.hi] ⟨[m.length], fun i => m.getD (i.getD 0 0) 0⟩⟩
    | .reg2 a0 a1 g => .ok ⟨name, ct, cn, .reg (nameList cn) [a0.lo, a1.lo] [a0.hi, a1.hi]
        ⟨[g.n0, g.n1], fun i => g.val (i.getD 0 0) (i.getD 1 0)⟩⟩
    | .reg3 a0 a1 a2 g => .ok ⟨name, ct, cn, .reg (nameList cn) [a0.lo, a1.lo, a2.lo] [a0.hi, a1.hi, a2.hi]
        ⟨[g.n0, g.n1, g.n2], fun i => g.val (i.getD 0 0) (i.getD 1 0) (i.getD 2 0)⟩⟩
    | _ => .error .valueError
  | _, _ => .error .keyError

/-- An image: `extent`, the numbers of rows and columns and the entry of a row and a column. -/
structure Image where
  left : ℝ
  right : ℝ
  bottom : ℝ
  top : ℝ
  rows : Nat
  cols : Nat
  val : Nat → Nat → ℝ

/-- The content of a figure, its labels on the axes and, for images, on the colour bar. -/
inductive Pic
  | line (pts : List (ℝ × ℝ)) (xlabel : CoordName) (ylabel : String)
  | bars (bars : List ((ℝ × ℝ) × ℝ)) (logScale : Bool) (xlabel ylabel : String)
  | image (img : Image) (xlabel ylabel label : String)
  | band (median lower upper : List (ℝ × ℝ)) (fill : List (ℝ × ℝ × ℝ)) (logScale : Bool) (xlabel : CoordName) (ylabel : String)

/-- `ax.plot(x, y)`: the points, connected by straight lines. -/
def plotLine (x y : List ℝ) : Res (List (ℝ × ℝ)) := if x.length = y.length then .ok (x.zip y) else .error .valueError

/-- `_plot_map_1d_point` (plot.py 622-630). -/
def plotPoint (c : Drawable) (coords map : List ℝ) : Res Pic := do
  let pts ← plotLine coords map
  return .line pts c.cname c.name

/-- The entries of an array with one axis. -/
def entries (a : NdArr) (n : Nat) : List ℝ := (List.range n).map (fun i => a.val [i])

/-- `_plot_map_1d_regbin` (plot.py 633-655). -/
noncomputable def plotBars (c : Drawable) (a : NdArr) (n : Nat) (ax : Axis) : Res Pic := do
  let ec ← edgesCenters ax.lower ax.upper n ax.isLog
  return .bars ((Plot.bars ec.1 ec.2).zip (entries a n)) ax.isLog ax.name c.name

/-- An end of `extent` (plot.py 693-698): the first or last edge, or its logarithm. -/
noncomputable def shownEdge (isLog : Bool) (e : ℝ) : ℝ := if isLog then Real.logb 10 e else e

/-- The label of an axis (plot.py 699-700). -/
def axisLabel (ax : Axis) : String := if ax.isLog then "log10(" ++ ax.name ++ ")" else ax.name

/-- `_plot_map_2d_regbin` (plot.py 658-711).  Entry `[i, j]` of the map is in column `i` and row `j` of the transposed array. -/
noncomputable def plotImage (label : String) (a : NdArr) (n0 n1 : Nat) (ax0 ax1 : Axis) : Res Pic := do
  let e0 ← edgesCenters ax0.lower ax0.upper n0 ax0.isLog
  let e1 ← edgesCenters ax1.lower ax1.upper n1 ax1.isLog
  return .image
    ⟨shownEdge ax0.isLog (e0.1.headD 0), shownEdge ax0.isLog (e0.1.getLastD 0), shownEdge ax1.isLog (e1.1.headD 0),
      shownEdge ax1.isLog (e1.1.getLastD 0), n1, n0, fun row col => a.val [col, row]⟩
    (axisLabel ax0) (axisLabel ax1) label

/-- `min` and `max` of a list that is not empty (plot.py 730). -/
noncomputable def lowest : List ℝ → Res ℝ
  | [] => .error .valueError
  | x :: l => .ok (l.foldl min x)

/-- See `lowest`. -/
noncomputable def highest : List ℝ → Res ℝ
  | [] => .error .valueError
  | x :: l => .ok (l.foldl max x)

/-- `np.interp(x, xp, fp)` (plot.py 731-732): an empty table and different lengths are ValueErrors. -/
noncomputable def npInterp (xp fp : List ℝ) (x : ℝ) : Res ℝ :=
  if xp = [] then .error .valueError
  else if xp.length ≠ fp.length then .error .valueError
  else .ok (Interp.linear1d xp fp x)

/-- A place of the band (plot.py 731-733): the values of the lower and the upper table. -/
noncomputable def bandAt (xl yl xu yu : List ℝ) (x : ℝ) : Res (ℝ × ℝ × ℝ) := do
  let a ← npInterp xl yl x
  let b ← npInterp xu yu x
  return (x, a, b)

/-- `_plot_sigma_map_1d_point` (plot.py 714-736). -/
noncomputable def plotSigmaPoint (name : String) (cname : CoordName) (xm ym xl yl xu yu : List ℝ) : Res Pic := do
  let m ← plotLine xm ym
  let l ← plotLine xl yl
  let u ← plotLine xu yu
  let lo ← lowest (xm ++ xl ++ xu)
  let hi ← highest (xm ++ xl ++ xu)
  let fill ← (Interp.linspace lo hi 500).mapM (bandAt xl yl xu yu)
  return .band m l u fill false cname name

/-- `_plot_sigma_map_1d_regbin` (plot.py 739-761); `len(med_data)` bins, and arrays of other lengths raise. -/
noncomputable def plotSigmaBins (name : String) (m l u : NdArr) (n : Nat) (ax : Axis) : Res Pic := do
  let ec ← edgesCenters ax.lower ax.upper n ax.isLog
  if l.shape = m.shape ∧ u.shape = m.shape then
    return .band (ec.2.zip (entries m n)) (ec.2.zip (entries l n)) (ec.2.zip (entries u n))
      (ec.2.zip ((entries l n).zip (entries u n))) ax.isLog (.one ax.name) name
  else .error .valueError

/-- `is_log_axes` (plot.py 864-868, 930-934). -/
def flagsOf : CoordType → Nat → List Bool
  | .axes l, _ => l.map (fun c => c == "log_regbin")
  | .one s, n => List.replicate n (s == "log_regbin")

/-- The axes handed to the collapsing (plot.py 864-882). -/
def axesOf (ct : CoordType) (names : List String) (lowers uppers : List ℝ) : List Axis :=
  (names.zip (lowers.zip (uppers.zip (flagsOf ct lowers.length)))).map (fun e => ⟨e.1, e.2.1, e.2.2.1, e.2.2.2⟩)

/-- The branches on the type: tables (plot.py 860, 926). -/
def isPoint (ct : CoordType) : Bool := ct = .one "point" || ct = .one "log_point"

/-- The branches on the type: arrays (plot.py 863, 929). -/
def isReg : CoordType → Bool
  | .axes _ => true
  | .one s => s == "regbin" || s == "log_regbin"

/-- A request to collapse one map: axis names with a range or None. -/
abbrev Collapse := PyDict String (Option (ℝ × ℝ))

/-- The last part of `_plot_regular_map` (plot.py 883-914): one or two axes are drawn, other numbers are skipped with a warning. -/
noncomputable def drawReg (c : Drawable) : NdArr × List Axis → Res (Option Pic)
  | (a, [ax]) => match a.shape with
    | n :: _ => (plotBars c a n ax).map some
    | [] => .error .typeError
  | (a, [ax0, ax1]) => match a.shape with
    | [n0, n1] => (plotImage c.name a n0 n1 ax0 ax1).map some
    | _ => .error .valueError
  | _ => .ok none

/-- `_plot_regular_map` (plot.py 856-914). -/
noncomputable def plotRegular (c : Drawable) (collapse : Collapse) : Res (Option Pic) :=
  if isPoint c.ctype then match c.data with
    | .point x y => (plotPoint c x y).map some
    | .reg .. => .error .attributeError
  else if isReg c.ctype then match c.data with
    | .reg names lo hi a => do
      let r ← collapseMap a (axesOf c.ctype names lo hi) collapse
      drawReg c r
    | .point .. => .error .attributeError
  else .ok none

/-- The last part of `_plot_sigma_map` (plot.py 969-1014): one figure for one axis, three for two axes, in this order. -/
noncomputable def drawSigma (name : String) (m l u : NdArr) : List Axis → Res (Option (List Pic))
  | [ax] => match m.shape with
    | n :: _ => (plotSigmaBins name m l u n ax).map (fun p => some [p])
    | [] => .error .typeError
  | [ax0, ax1] => do
    let figs ← [(l, "lower"), (m, "median"), (u, "upper")].mapM (fun e => match e.1.shape with
      | [n0, n1] => plotImage (name ++ " (" ++ e.2 ++ ")") e.1 n0 n1 ax0 ax1
      | _ => .error .valueError)
    return some figs
  | _ => .ok none

/-- `_plot_sigma_map` (plot.py 917-1014): type, names and bounds are those of the median, also for the other two maps. -/
noncomputable def plotSigma (name : String) (m l u : Drawable) (collapse : Collapse) : Res (Option (List Pic)) :=
  if isPoint m.ctype then match m.data, l.data, u.data with
    | .point xm ym, .point xl yl, .point xu yu => (plotSigmaPoint name m.cname xm ym xl yl xu yu).map (fun p => some [p])
    | _, _, _ => .error .attributeError
  else if isReg m.ctype then match m.data, l.data, u.data with
    | .reg names lo hi am, .reg _ _ _ al, .reg _ _ _ au => do
      let rm ← collapseMap am (axesOf m.ctype names lo hi) collapse
      let rl ← collapseMap al (axesOf m.ctype names lo hi) collapse
      let ru ← collapseMap au (axesOf m.ctype names lo hi) collapse
      drawSigma name rm.1 rl.1 ru.1 rm.2
    | _, _, _ => .error .attributeError
  else .ok none

/-- `_lookup_collapse` (plot.py 764-770); `names` is a set, here in the order in which python happens to go through it. -/
def lookupCollapse {C : Type} (collapse : Option (PyDict String C)) (names : List String) : Option C :=
  match collapse with
  | none => none
  | some d => names.findSome? (fun n => d.get? n)

/-- The configurations of a class are objects of the class, built again for each likelihood (plugin.py 43-45): after some builds a
map has the file of its last one.  A build is a configuration and a file. -/
def currentFile (builds : List (String × String)) (cfg : String) : Option String :=
  (builds.reverse.find? (fun b => b.1 == cfg)).map Prod.snd

/-- `config.file_path` of a plain map (plot.py 486).  A map that was not built has none. -/
def builtMap (builds : List (String × String)) (n : String) : Res MapCfg :=
  match currentFile builds n with
  | some f => .ok (MapCfg.map n f)
  | none => .error .attributeError

/-- The files `_collect_maps` finds for the plain maps used by the likelihoods (plot.py 464-491): the attribute of the class. -/
def collectCurrent (builds : List (String × String)) (used : List String) : Res (PyDict (List String) (MapCfg × List String)) := do
  let cfgs ← used.mapM (builtMap builds)
  return collectMaps cfgs

end Verif.MapPic
