/-
Model of histogramming, normalisation, weighted data and repeated simulation of components:
`appletree/component.py` 71-176, 440-484, 596-650.

Arithmetic is exact over an ordered field `F`.  A simulated batch is a list of columns, one value per
event.  `1 / x` is field division: theorems about it assume `x ≠ 0` (JAX gives inf).  A histogram is a list of
rows; the one-dimensional one has one row.  NaN coordinates are left out here (see `Model/Hist.lean`).
-/
import Verif.Model.Hist
import Verif.Model.Component
import Mathlib.Algebra.Order.Field.Basic
import Mathlib.Algebra.Field.Defs

namespace Verif.Comp
open Verif

section
variable {F : Type} [Field F] [LinearOrder F]

/-- `bins` and `bins_type` (component.py 58-69). -/
inductive Bins (F : Type)
  | irreg1 (edges : List F)
  | irreg2 (x : List F) (y : List (List F))
  | irregOther (dims : Nat)
  | mesh1 (edges : List F)
  | mesh2 (x y : List F)
  | unset (dims : Nat)

/-- `len(self.bins)`. -/
def Bins.dims : Bins F → Nat
  | .irreg1 _ => 1
  | .irreg2 _ _ => 2
  | .irregOther n => n
  | .mesh1 _ => 1
  | .mesh2 _ _ => 2
  | .unset n => n

/-- Where `_use_mcinput` looks (component.py 81-83): a fixed component has no plugin registry; the registry may
lack a plugin for "energy"; its name contains "Bootstrap" or not. -/
inductive Energy
  | noRegistry
  | missing
  | bootstrap
  | simulated
  deriving DecidableEq

/-- `_use_mcinput` (component.py 81-83). -/
def useMcinput : Energy → Res Bool
  | .noRegistry => .error .attributeError
  | .missing => .error .keyError
  | .bootstrap => .ok true
  | .simulated => .ok false

/-- Settings of a component that histogramming reads (component.py 28-33). -/
structure HistCfg (F : Type) where
  bins : Bins F
  normType : String := ""
  addEps : Bool := true
  energy : Energy := .simulated
  nSelected : F

/-- `jnp.mean(eff)` for a nonempty array. -/
def mean (eff : List F) : F := eff.sum / (eff.length : F)

/-- `1e-10`. -/
def tiny : F := 1 / 10000000000

/-- The floor added to the histogram (component.py 154-157). -/
def floorHist (addEps : Bool) (eff : List F) (h : List (List F)) : List (List F) :=
  if addEps then h.map (fun row => row.map (fun x => max x (tiny + mean eff))) else h

/-- Pairs of one-dimensional samples and weights. -/
def samples1 (c : List F) (eff : List F) : List (Option F × F) := (c.map some).zip eff

/-- Pairs of two-dimensional samples and weights. -/
def samples2 (c d : List F) (eff : List F) : List ((Option F × Option F) × F) :=
  ((c.map some).zip (d.map some)).zip eff

/-- The histogram before the floor (component.py 143-153). -/
def rawHist (bins : Bins F) (cols : List (List F)) (eff : List F) : Res (List (List F)) :=
  match bins, cols with
  | .irreg1 b, [c] => .ok [Hist.hist1d b (samples1 c eff)]
  | .irreg2 x y, [c, d] => .ok (Hist.hist2d x y ((y.head?.getD []).length) (samples2 c d eff))
  | .mesh1 b, [c] => .ok [Hist.mesh1d b (samples1 c eff)]
  | .mesh2 x y, [c, d] => .ok (Hist.mesh2d x y (samples2 c d eff))
  | _, _ => .error .valueError

/-- `implement_binning` (component.py 135-158). -/
def implementBinning (cfg : HistCfg F) (cols : List (List F)) (eff : List F) : Res (List (List F)) := do
  let h ← rawHist cfg.bins cols eff
  return floorHist cfg.addEps eff h

/-- `jnp.sum(hist)`. -/
def total (h : List (List F)) : F := (h.map List.sum).sum

/-- `get_normalization` (component.py 160-176); `rate` is `parameters[self.rate_name]`. -/
def normalization (cfg : HistCfg F) (h : List (List F)) (rate batch : F) : Res F :=
  if cfg.normType = "on_pdf" then .ok (1 / total h * rate)
  else if cfg.normType = "on_sim" then do
    let mc ← useMcinput cfg.energy
    if mc then return 1 / cfg.nSelected * rate else return 1 / batch * rate
  else .error .valueError

def scaleHist (f : F) (h : List (List F)) : List (List F) := h.map (fun row => row.map (· * f))

/-- `ComponentSim.simulate_hist` after the call of the simulator (component.py 448-464). -/
def simulateHist (cfg : HistCfg F) (forceNoEff : Bool) (result : List (List F)) (rate batch : F) :
    Res (List (List F)) := do
  let (mc, eff) ← splitEff 1 forceNoEff result
  if mc.length ≠ cfg.bins.dims then .error .assertionError
  else
    let h ← implementBinning cfg mc eff
    let f ← normalization cfg h rate batch
    return scaleHist f h

/-- `np.array(self.bins[i]).min()` and `.max()` of axis `i` (component.py 75-76), as the list of all edges. -/
def Bins.axis : Bins F → Nat → List F
  | .irreg1 b, 0 => b
  | .irreg2 x _, 0 => x
  | .irreg2 _ y, 1 => y.flatten
  | .mesh1 b, 0 => b
  | .mesh2 x _, 0 => x
  | .mesh2 _ y, 1 => y
  | _, _ => []

/-- `result[i] > min` and `result[i] < max` for one value (component.py 75-76). -/
def strictlyInside (edges : List F) (v : F) : Bool :=
  decide (∃ lo ∈ edges, (∀ e ∈ edges, lo ≤ e) ∧ lo < v) &&
  decide (∃ hi ∈ edges, (∀ e ∈ edges, e ≤ hi) ∧ v < hi)

/-- `mask &= ...` over the axes 0..n-1 (component.py 72-76). -/
def clipMask (bins : Bins F) (cols : List (List F)) (n : Nat) : List Bool :=
  cols.zipIdx.foldl (fun m c => m.zipWith (· && ·) (c.1.map (strictlyInside (bins.axis c.2))))
    (List.replicate n true)

/-- Boolean indexing `a[mask]`. -/
def applyMask {α : Type} (mask : List Bool) (a : List α) : List α :=
  (a.zip mask).filterMap (fun p => if p.2 then some p.1 else none)

/-- `_clip` (component.py 71-79). -/
def clipResult (bins : Bins F) (cols : List (List F)) (last : List F) : List (List F) × List F :=
  let mask := clipMask bins cols last.length
  (cols.map (applyMask mask), applyMask mask last)

/-- `ComponentSim.simulate_weighted_data` after the call of the simulator (component.py 466-484). -/
def simulateWeighted (cfg : HistCfg F) (cols : List (List F)) (eff : List F) (rate batch : F) :
    Res (List (List F) × List F) :=
  let r := clipResult cfg.bins cols eff
  if r.1.length ≠ cfg.bins.dims then .error .assertionError
  else do
    let h ← implementBinning cfg r.1 r.2
    let f ← normalization cfg h rate batch
    return (r.1, r.2.map (· * f))

/-- `ComponentFixed` (component.py 596-650): the loaded data columns, unit weights, and the histogram made by
`deduce`. -/
structure FixedComp (F : Type) where
  cfg : HistCfg F
  data : List (List F)
  eff : List F
  hist : List (List F)
  needed : List String

/-- `ComponentFixed.deduce` (component.py 611-616); `needed` accumulates. -/
def fixedDeduce (cfg : HistCfg F) (rateName : String) (needed : List String) (data : List (List F)) (n : Nat) :
    Res (FixedComp F) := do
  let eff := List.replicate n (1 : F)
  let h ← implementBinning cfg data eff
  return ⟨cfg, data, eff, h, if rateName ∈ needed then needed else needed ++ [rateName]⟩

/-- `ComponentFixed.simulate_hist` (component.py 622-625). -/
def fixedHist (c : FixedComp F) (rate : F) : Res (List (List F)) := do
  let f ← normalization c.cfg c.hist rate (c.eff.length : F)
  return scaleHist f c.hist

/-- `ComponentFixed.simulate_weighted_data` (component.py 627-636).  The object is not written. -/
def fixedWeighted (c : FixedComp F) (rate : F) : Res (List (List F) × List F) := do
  let r := clipResult c.cfg.bins c.data c.eff
  let f ← normalization c.cfg c.hist rate (c.eff.length : F)
  return (r.1, r.2.map (· * f))

/-! ### Repeated simulation -/

/-- The body of the loop of `multiple_simulations` (component.py 93-105). -/
def oneSimulation {K : Type} (sim : K → K × List (List F)) (forceNoEff applyEff : Bool) (key : K) :
    Res (K × List (List F)) :=
  let r := sim key
  if applyEff then
    if forceNoEff then .error .runtimeError
    else match r.2.getLast? with
      | none => .error .indexError
      | some eff => .ok (r.1, r.2.map (applyMask (eff.map (fun e => decide (0 < e)))))
  else .ok r

/-- The loop, collecting the pile. -/
def simLoop {K : Type} (sim : K → K × List (List F)) (forceNoEff applyEff : Bool) :
    Nat → K → List (List (List F)) → Res (K × List (List (List F)))
  | 0, key, pile => .ok (key, pile)
  | n + 1, key, pile => do
    let r ← oneSimulation sim forceNoEff applyEff key
    simLoop sim forceNoEff applyEff n r.1 (pile ++ [r.2])

/-- `results[i]`. -/
def columnAt (i : Nat) (r : List (List F)) : Res (List F) :=
  match r[i]? with
  | none => .error .indexError
  | some c => .ok c

/-- `np.hstack([results_pile[j][i] for j in range(times)])` (component.py 106-108). -/
def hstackColumn (pile : List (List (List F))) (i : Nat) : Res (List F) := do
  let parts ← pile.mapM (columnAt i)
  return parts.flatten

/-- `multiple_simulations` (component.py 89-109). -/
def multipleSimulations {K : Type} (sim : K → K × List (List F)) (forceNoEff applyEff : Bool) (times : Int)
    (key : K) : Res (K × List (List F)) :=
  if times ≤ 0 then .error .assertionError
  else do
    let (key, pile) ← simLoop sim forceNoEff applyEff times.toNat key []
    let width := (pile.getLast?.getD []).length
    let cols ← (List.range width).mapM (hstackColumn pile)
    return (key, cols)

end
end Verif.Comp

/-! ### Aliasing in `ComponentFixed.simulate_weighted_data`

Numpy arrays are mutable: here an array is an index into a heap. -/
namespace Verif.Comp
open Verif
variable {F : Type} [Field F] [LinearOrder F]

abbrev Heap (F : Type) := List (List F)

/-- Allocating a new array. -/
def Heap.alloc (h : Heap F) (a : List F) : Heap F × Nat := (h ++ [a], h.length)

/-- `result[i] = result[i][mask]` for each `i` (component.py 77-78): boolean indexing copies. -/
def clipHeap (h : Heap F) (mask : List Bool) : List Nat → Heap F × List Nat
  | [] => (h, [])
  | i :: is =>
    let (h, j) := h.alloc (applyMask mask (h[i]?.getD []))
    let (h, js) := clipHeap h mask is
    (h, j :: js)

/-- `ComponentFixed.simulate_weighted_data` (component.py 627-636) on array identities: the columns of
`self.data.T` are views, `np.array(self.eff)` copies, and the last array is multiplied in place. -/
def fixedWeightedHeap (h : Heap F) (mask : List Bool) (dataCols : List Nat) (eff : Nat) (f : F) :
    Heap F × List Nat :=
  let (h, e) := h.alloc (h[eff]?.getD [])
  let (h, ids) := clipHeap h mask (dataCols ++ [e])
  match ids.getLast? with
  | none => (h, ids)
  | some l => (h.modify l (fun a => a.map (· * f)), ids)

end Verif.Comp
