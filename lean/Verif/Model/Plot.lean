/-
Model of the computations behind the plots: `appletree/plot.py` 22-63 (reading a chain), 301-334 (autocorrelation),
392-441 (acceptance fraction), 454-493 (collecting maps), 496-619 (map geometry) and 788-853 (saving figures).
Drawing itself is not modelled.
-/
import Verif.Base.XF
import Verif.Base.Py
import Verif.Base.MapM
import Verif.Model.Interp
import Mathlib.Analysis.SpecialFunctions.Log.Base
import Mathlib.Analysis.SpecialFunctions.Pow.Real
import Mathlib.Analysis.SpecialFunctions.Complex.Circle

namespace Verif.Plot
open Verif

/-! ### Autocorrelation time (plot.py 301-334) -/

/-- The loop of `next_pow_two` (plot.py 313-317); the first argument bounds the number of doublings. -/
def nextPowTwoLoop : Nat → Nat → Nat → Nat
  | 0, i, _ => i
  | fuel + 1, i, n => if i < n then nextPowTwoLoop fuel (2 * i) n else i

/-- `next_pow_two` (plot.py 313-317). -/
def nextPowTwo (n : Nat) : Nat := nextPowTwoLoop n 1 n

/-- `np.argmin` of a boolean array: the first `False`, or 0 if there is none. -/
def argminBool (m : List Bool) : Nat :=
  let i := m.findIdx (fun b => !b)
  if i < m.length then i else 0

/-- `auto_window` (plot.py 319-323) as a function of `m = np.arange(len(taus)) < c * taus`.  The index `-1` for an empty
list is `none`. -/
def autoWindow (m : List Bool) : Option Nat :=
  if m.any id then some (argminBool m) else if m = [] then none else some (m.length - 1)

/-- `np.arange(len(taus)) < c * taus` (plot.py 320). -/
noncomputable def windowMask (c : ℝ) (taus : List ℝ) : List Bool :=
  taus.mapIdx (fun i t => decide ((i : ℝ) < c * t))

/-- `np.cumsum`. -/
def cumsumAux {F : Type} [Add F] : F → List F → List F
  | _, [] => []
  | s, x :: xs => (s + x) :: cumsumAux (s + x) xs

/-- `np.cumsum`. -/
def cumsum {F : Type} [Add F] [Zero F] (l : List F) : List F := cumsumAux 0 l

/-- `np.mean` of a list. -/
noncomputable def mean (l : List ℝ) : ℝ := l.sum / l.length

/-- `np.fft.fft(x, n=N)` for a list no longer than `N` (zero padding). -/
noncomputable def fft (N : Nat) (x : List ℝ) (k : Nat) : ℂ :=
  ∑ j ∈ Finset.range N, (x.getD j 0 : ℂ) * Complex.exp (-(2 * Real.pi * Complex.I * (j * k : ℕ) / N))

/-- `np.fft.ifft(f)[m]` for a sequence of length `N`. -/
noncomputable def ifft (N : Nat) (f : Nat → ℂ) (m : Nat) : ℂ :=
  (1 / N) * ∑ k ∈ Finset.range N, f k * Complex.exp (2 * Real.pi * Complex.I * (k * m : ℕ) / N)

/-- `autocorr_func_1d(x, norm=False)` (plot.py 301-311). -/
noncomputable def autocorrRaw (x : List ℝ) : List ℝ :=
  let n := nextPowTwo x.length
  let y := x.map (fun v => v - mean x)
  let f := fft (2 * n) y
  (List.range x.length).map (fun m =>
    (ifft (2 * n) (fun k => f k * (starRingEnd ℂ) (f k)) m).re / (4 * n))

/-- `autocorr_func_1d(x)` (plot.py 301-311) with the default `norm=True`. -/
noncomputable def autocorr (x : List ℝ) : List ℝ :=
  (autocorrRaw x).map (fun a => a / (autocorrRaw x).getD 0 0)

/-- The list `taus` of `autocorr_new` (plot.py 326-330); `y` holds one row per walker, all of length `n`. -/
noncomputable def tauList (n : Nat) (y : List (List ℝ)) : List ℝ :=
  (cumsum ((List.range n).map (fun k => ((y.map (fun row => (autocorr row).getD k 0)).sum) / y.length))).map
    (fun s => 2 * s - 1)

/-- `autocorr_new` (plot.py 325-332). -/
noncomputable def autocorrNew (n : Nat) (y : List (List ℝ)) (c : ℝ) : Option ℝ :=
  match autoWindow (windowMask c (tauList n y)) with
  | none => none
  | some w => (tauList n y)[w]?

/-! ### Acceptance fraction (plot.py 392-441) -/

/-- `accepted[i - 1, w]` for one walker (plot.py 395-397): did the position change at each step?  `chain` is the list
of positions of the walker. -/
def accepted {P : Type} [DecidableEq P] (chain : List P) : List Bool :=
  (chain.zip chain.tail).map (fun s => decide (s.2 ≠ s.1))

/-- The number of accepted steps among the first `k`. -/
def acceptedCount (acc : List Bool) (k : Nat) : Nat := (acc.take k).count true

/-- `acceptance_fraction[:, w]` (plot.py 398): cumulative fraction after each step. -/
noncomputable def cumFraction (acc : List Bool) : List ℝ :=
  (List.range acc.length).map (fun i => (acceptedCount acc (i + 1) : ℝ) / (i + 1))

/-- `avg_acceptance_fraction` (plot.py 399) for the given walkers with `steps` steps each. -/
noncomputable def avgFraction (steps : Nat) (accs : List (List Bool)) : List ℝ :=
  (List.range steps).map (fun i => mean (accs.map (fun a => (cumFraction a).getD i 0)))

/-- The effective window (plot.py 402-407). -/
def effWindow (windowLength nIter : Nat) : Nat := if windowLength ≥ nIter then nIter - 1 else windowLength

/-- `moving_avg_acceptance_fraction` (plot.py 408-412): entry `j` is for iteration `window + j`. -/
noncomputable def movingFraction (windowLength nIter : Nat) (accs : List (List Bool)) : List ℝ :=
  let w := effWindow windowLength nIter
  (List.range (nIter - w)).map (fun j =>
    mean (accs.map (fun a => (((a.drop j).take w).count true : ℝ) / w)))

/-- `mean_acceptance_fraction_per_walker` (plot.py 437). -/
noncomputable def walkerFraction (acc : List Bool) : ℝ := mean (cumFraction acc)

/-! ### Reading a chain (plot.py 22-63) -/

/-- `v[discard + thin - 1 : iteration : thin]` of emcee's `get_value`; `thin = 0` is a ValueError. -/
def thinned {α : Type} (discard thin : Nat) (l : List α) : Res (List α) :=
  if thin = 0 then .error .valueError
  else .ok ((List.range l.length).filterMap (fun k => l[discard + thin - 1 + k * thin]?))

/-- `a[mask]` with a boolean mask (IndexError if the lengths differ). -/
def applyMask {α : Type} (mask : List Bool) (l : List α) : Res (List α) :=
  if mask.length ≠ l.length then .error .indexError
  else .ok ((mask.zip l).filterMap (fun e => if e.1 then some e.2 else none))

/-- `np.argmax` of a nonempty list of finite values: the first maximum (ValueError if empty). -/
noncomputable def argmax : List ℝ → Option Nat
  | [] => none
  | [_] => some 0
  | a :: b :: l => match argmax (b :: l) with
    | none => some 0
    | some j => if a < (b :: l).getD j 0 then some (j + 1) else some 0

/-- The finite value of a float. -/
noncomputable def finVal : XF → ℝ
  | .fin x => x
  | _ => 0

/-- Is every walker of an iteration finite? (plot.py 41-42). -/
def rowFinite (row : List XF) : Bool := row.all (fun x => decide x.isFinite)

/-- Is a posterior finite? (plot.py 51). -/
def valFinite (x : XF) : Bool := decide x.isFinite

/-- What `Plotter.__init__` keeps. -/
structure Chains (P B : Type) where
  chain : List (List P)
  posterior : List (List XF)
  prior : List (List B)
  flatChain : List P
  flatPosterior : List XF
  flatPrior : List B
  mpe : P

/-- `Plotter.__init__` (plot.py 22-63) on the stored arrays, iteration by iteration and walker by walker; `P` is a
parameter vector and `B` a blob. -/
noncomputable def readChain {P B : Type} (discard thin : Nat) (chain : List (List P)) (post : List (List XF))
    (prior : List (List B)) : Res (Chains P B) := do
  let c ← thinned discard thin chain
  let p ← thinned discard thin post
  let b ← thinned discard thin prior
  let mask := p.map rowFinite
  let c' ← applyMask mask c
  let p' ← applyMask mask p
  let b' ← applyMask mask b
  let flat := p.flatten.map valFinite
  let fc ← applyMask flat c.flatten
  let fp ← applyMask flat p.flatten
  let fb ← applyMask flat b.flatten
  let i ← match argmax (fp.map finVal) with
    | none => (.error .valueError : Res Nat)
    | some i => .ok i
  let mpe ← match fc[i]? with
    | none => (.error .indexError : Res P)
    | some v => .ok v
  return ⟨c', p', b', fc, fp, fb, mpe⟩

/-! ### Map geometry (plot.py 496-619) -/

/-- `_regbin_edges_centers` on a linear axis (plot.py 531-543); for a logarithmic axis the same is done on the
logarithms. -/
noncomputable def linearEdges (lower upper : ℝ) (n : Nat) : Res (List ℝ × List ℝ) :=
  let centers := Interp.linspace lower upper n
  match centers with
  | [] => .error .indexError
  | [c] => .ok ([c - 1 / 2, c + 1 / 2], centers)
  | c0 :: c1 :: rest =>
    let half := (c1 - c0) / 2
    let mids := List.zipWith (fun a b => (a + b) / 2) centers centers.tail
    .ok ((c0 - half) :: mids ++ [(c1 :: rest).getLast (by simp) + half], centers)

/-- `_regbin_edges_centers` (plot.py 496-544); positive bounds on logarithmic axes. -/
noncomputable def edgesCenters (lower upper : ℝ) (n : Nat) (isLog : Bool) : Res (List ℝ × List ℝ) :=
  if isLog then match linearEdges (Real.logb 10 lower) (Real.logb 10 upper) n with
    | .error e => .error e
    | .ok (e, c) => .ok (e.map (fun x => (10 : ℝ) ^ x), c.map (fun x => (10 : ℝ) ^ x))
  else linearEdges lower upper n

/-- The bars drawn by `_plot_map_1d_regbin` (plot.py 633-655): `ax.bar(centers, …, width=widths, align="center")`
covers `center ± width/2`. -/
noncomputable def bars (edges centers : List ℝ) : List (ℝ × ℝ) :=
  List.zipWith (fun c w => (c - w / 2, c + w / 2)) centers (List.zipWith (fun a b => b - a) edges edges.tail)

/-- An array with its shape. -/
structure NdArr where
  shape : List Nat
  val : List Nat → ℝ

/-- The bins kept on an axis (plot.py 599-608): those whose centre is in the range, or all if there is none. -/
noncomputable def selectBins (centers : List ℝ) (range : Option (ℝ × ℝ)) : List Nat :=
  match range with
  | none => List.range centers.length
  | some (lo, hi) =>
    let s := (List.range centers.length).filter (fun i => decide (lo ≤ centers.getD i 0 ∧ centers.getD i 0 ≤ hi))
    if s = [] then List.range centers.length else s

/-- `np.mean(map_data[..., selected, ...], axis=axis)` (plot.py 609-613). -/
noncomputable def meanAxis (a : NdArr) (axis : Nat) (sel : List Nat) : NdArr :=
  ⟨a.shape.eraseIdx axis,
   fun idx => (sel.map (fun i => a.val (idx.insertIdx axis i))).sum / sel.length⟩

/-- The description of an axis: name, bounds and whether it is logarithmic. -/
structure Axis where
  name : String
  lower : ℝ
  upper : ℝ
  isLog : Bool

/-- One pass of the collapsing loop (plot.py 590-617). -/
noncomputable def collapseStep (s : NdArr × List Axis) (op : Nat × Option (ℝ × ℝ)) : Res (NdArr × List Axis) :=
  match s.1.shape[op.1]?, s.2[op.1]? with
  | some n, some ax =>
    match edgesCenters ax.lower ax.upper n ax.isLog with
    | .error e => .error e
    | .ok (_, centers) => .ok (meanAxis s.1 op.1 (selectBins centers op.2), s.2.eraseIdx op.1)
  | _, _ => .error .indexError

/-- The list `axes_to_collapse`, sorted from the highest index (plot.py 578-584).  Names that are no axis of the map
are ignored; a repeated axis name stands for its first axis. -/
def collapseOps (axes : List String) (collapse : PyDict String (Option (ℝ × ℝ))) : List (Nat × Option (ℝ × ℝ)) :=
  (collapse.filterMap (fun e => if e.1 ∈ axes then some (axes.idxOf e.1, e.2) else none)).mergeSort
    (fun a b => decide (b.1 ≤ a.1))

/-- `_collapse_regbin_map` (plot.py 547-619); `collapse = None` is the empty dictionary. -/
noncomputable def collapseMap (a : NdArr) (axes : List Axis) (collapse : PyDict String (Option (ℝ × ℝ))) :
    Res (NdArr × List Axis) :=
  (collapseOps (axes.map Axis.name) collapse).foldlM collapseStep (a, axes)

/-! ### Collecting and saving (plot.py 454-493, 788-853) -/

/-- A configuration of a plugin as far as `_collect_maps` looks at it. -/
inductive MapCfg
  | sigma (name : String) (median lower upper : String)
  | map (name : String) (file : String)
  | other (name : String)
  deriving DecidableEq, Repr

/-- The deduplication key (plot.py 477-486). -/
def MapCfg.key : MapCfg → Option (List String)
  | .sigma _ m l u => some [m, l, u]
  | .map _ f => some [f]
  | .other _ => none

/-- `config.name`. -/
def MapCfg.name : MapCfg → String
  | .sigma n _ _ _ => n
  | .map n _ => n
  | .other n => n

/-- The inner loop of `_collect_maps` over the configurations of the plugins in use (plot.py 476-491).  A one-element
key stands for the string key of a plain map, which never equals a tuple. -/
def collectMaps (cfgs : List MapCfg) : PyDict (List String) (MapCfg × List String) :=
  cfgs.foldl (fun acc c => match c.key with
    | none => acc
    | some k => match acc.get? k with
      | none => acc.set k (c, [c.name])
      | some (c0, names) => acc.set k (c0, if c.name ∈ names then names else names ++ [c.name])) []

/-- The labels of the figures `_plot_config` makes for a regular-grid configuration with `ndim` axes left
(plot.py 883-911, 969-1012); other dimensions give none. -/
def figures (c : MapCfg) (ndim : Nat) : List String :=
  match c with
  | .sigma n .. => if ndim = 1 then [n] else if ndim = 2 then [n ++ " (lower)", n ++ " (median)", n ++ " (upper)"] else []
  | .map n _ => if ndim = 1 ∨ ndim = 2 then [n] else []
  | .other _ => []

/-- `file_path` used by `_save_figure` (plot.py 790-793). -/
def MapCfg.saveFile : MapCfg → String
  | .sigma _ m _ _ => m
  | .map _ f => f
  | .other n => n

/-- The files on disk after `plot_maps(save=True)` (plot.py 794-796, 843-851): path to the label of the figure in it.
`stem` is the base name without extension. -/
def saveAll (stem : String → String) (fmt : List String) (items : List (MapCfg × Nat)) : PyDict String String :=
  items.foldl (fun acc it => (figures it.1 it.2).foldl (fun acc fig =>
    fmt.foldl (fun acc f => acc.set (stem it.1.saveFile ++ "." ++ f) fig) acc) acc) []

end Verif.Plot
