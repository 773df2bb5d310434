/-
Model of `appletree/likelihood.py`: construction and data selection (46-237), registration and aliases (239-296), the
model histogram and weighted data (298-339), the binned log likelihood (341-375) and `LikelihoodLit` (461-568).

Simplifications.  Configuration keys that are always read (`data_file_name`, `bins_type`, `bins_on`, `bins`) are
present.  A component is the functions it offers (`Model/CompHist.lean` gives them for the real ones); building it,
deducing and compiling are one step that succeeds or raises.  Warnings and printing are left out.  Data entries are
values of an ordered field or NaN (`none`); clips are finite.  The edges of `GOFevaluation.get_equiprobable_binning`
are an argument: its outer edges are infinite (so become the clip bounds), its inner edges are given.
-/
import Verif.Base.XF
import Verif.Model.CompHist
import Verif.Model.Interp
import Mathlib.Analysis.SpecialFunctions.Trigonometric.Basic

namespace Verif.Llh
open Verif

/-! ### Construction, likelihood.py 49-237 -/

/-- The value of `bins_on`. -/
inductive BinsOn
  | str (s : String)
  | list (l : List String)
  | other

/-- One entry of `bins`: a number of bins, edges, or one list of edges per x-bin. -/
inductive BinSpec (F : Type)
  | int (n : Nat)
  | edges (e : List F)
  | rows (r : List (List F))

/-- The value of `bins`. -/
inductive BinsVal (F : Type)
  | int (n : Nat)
  | list (l : List (BinSpec F))
  | other

/-- The configuration of a likelihood. -/
structure Config (F : Type) where
  binsType : String
  binsOn : BinsOn
  bins : BinsVal F
  clip : Option (F × F) := none
  xClip : Option (F × F) := none
  yClip : Option (F × F) := none

section
variable {F : Type} [Field F] [LinearOrder F]

/-- `_bins_on` and `_bins` after likelihood.py 71-86. -/
def normalise (on : BinsOn) (bins : BinsVal F) : Res (List String × List (BinSpec F)) :=
  match on, bins with
  | .str s, .int n => .ok ([s], [.int n])
  | .str s, .list l => .ok ([s], l)
  | .str _, .other => .error .typeError
  | .list l, .list b => .ok (l, b)
  | .list _, _ => .error .assertionError
  | .other, _ => .error .valueError

/-- `_sanity_check` (likelihood.py 293-296). -/
def sanityCheck (on : List String) (bins : List (BinSpec F)) : Res Unit :=
  if on.length ≠ bins.length then .error .runtimeError else .ok ()

/-- `config["clip"]`. -/
def need (c : Option (F × F)) : Res (F × F) :=
  match c with
  | some p => .ok p
  | none => .error .keyError

/-- `(v > clip[0]) & (v < clip[1])` for one entry. -/
def inside (c : F × F) : Option F → Bool
  | none => false
  | some v => decide (c.1 < v) && decide (v < c.2)

/-- Column `i` of a row. -/
def entry (row : List (Option F)) (i : Nat) : Option F := (row[i]?).getD none

/-- The selection of data rows (likelihood.py 90-98); every row has `dim` entries. -/
def select (dim : Nat) (cfg : Config F) (rows : List (List (Option F))) : Res (List (List (Option F))) :=
  if dim = 1 then do
    let c ← need cfg.clip
    return rows.filter (fun r => inside c (entry r 0))
  else if dim = 0 then .error .indexError
  else do
    let x ← need cfg.xClip
    let y ← need cfg.yClip
    return rows.filter (fun r => inside x (entry r 0) && inside y (entry r 1))

/-- `_resolve_bin_edges` (likelihood.py 106-125) for meshgrid bins: a list of lists is not a list of edges. -/
def resolveMesh (spec : BinSpec F) (c : F × F) : Res (List F) :=
  match spec with
  | .int n => .ok (Interp.linspace c.1 c.2 (n + 1))
  | .edges e => .ok e
  | .rows _ => .error .valueError

/-- Weight one for each row (likelihood.py 154). -/
def unit1 (rows : List (List (Option F))) : List (Option F × F) := rows.map (fun r => (entry r 0, 1))
def unit2 (rows : List (List (Option F))) : List ((Option F × Option F) × F) :=
  rows.map (fun r => ((entry r 0, entry r 1), 1))

/-- `_make_data_hist` (likelihood.py 152-173). -/
def makeDataHist (bins : Comp.Bins F) (rows : List (List (Option F))) : List (List F) :=
  match bins with
  | .mesh1 e => [Hist.mesh1d e (unit1 rows)]
  | .mesh2 x y => Hist.mesh2d x y (unit2 rows)
  | .irreg1 e => [Hist.hist1d e (unit1 rows)]
  | .irreg2 x y => Hist.hist2d x y ((y.head?.getD []).length) (unit2 rows)
  | _ => []

/-- `_validate_irreg_bins_2d` (likelihood.py 175-186); an empty list of rows passes. -/
def validateIrreg2 (x : List F) (y : List (List F)) : Res Unit :=
  if x.length ≠ y.length + 1 then .error .valueError
  else match y with
    | [] => .ok ()
    | r :: _ => if y.all (fun b => b.length = r.length) then .ok () else .error .valueError

/-- The inner equiprobable edges found by GOFevaluation for the selected data: one list in one dimension; the x edges and
one list per x-bin in two. -/
structure Equi (F : Type) where
  inner1 : List (List (Option F)) → Nat → List F
  inner2 : List (List (Option F)) → Nat → Nat → List F × List (List F)

/-- `np.clip` of edges running from -inf over `inner` to +inf (utils.py 309, 352-353). -/
def clipEdges (c : F × F) (inner : List F) : List F := c.1 :: inner.map (fun e => Interp.clip e c.1 c.2) ++ [c.2]

/-- `set_binning` (likelihood.py 188-237): the bins passed to components and the data histogram. -/
def setBinning (eq : Equi F) (dim : Nat) (cfg : Config F) (specs : List (BinSpec F))
    (rows : List (List (Option F))) : Res (Comp.Bins F × List (List F)) :=
  if dim ≠ 1 ∧ dim ≠ 2 then .error .valueError
  else if cfg.binsType = "meshgrid" then
    match specs with
    | [s] => do
      let c ← need cfg.clip
      let e ← resolveMesh s c
      return (.mesh1 e, makeDataHist (.mesh1 e) rows)
    | [s, t] => do
      let cx ← need cfg.xClip
      let ex ← resolveMesh s cx
      let cy ← need cfg.yClip
      let ey ← resolveMesh t cy
      return (.mesh2 ex ey, makeDataHist (.mesh2 ex ey) rows)
    | _ => .error .indexError
  else if cfg.binsType = "equiprob" then
    match specs with
    | [.int n] => do
      let c ← need cfg.clip
      let e := clipEdges c (eq.inner1 rows n)
      return (.irreg1 e, makeDataHist (.irreg1 e) rows)
    | [.int n, .int m] => do
      let cx ← need cfg.xClip
      let cy ← need cfg.yClip
      let r := eq.inner2 rows n m
      let ex := clipEdges cx r.1
      let ey := r.2.map (clipEdges cy)
      return (.irreg2 ex ey, makeDataHist (.irreg2 ex ey) rows)
    | _ => .error .runtimeError
  else if cfg.binsType = "irreg" then
    match specs with
    | [.edges e] => do
      let _ ← need cfg.clip
      return (.irreg1 e, makeDataHist (.irreg1 e) rows)
    | [.edges x, .rows y] => do
      let _ ← need cfg.xClip
      let _ ← need cfg.yClip
      validateIrreg2 x y
      return (.irreg2 x y, makeDataHist (.irreg2 x y) rows)
    | _ => .error .typeError
  else .error .valueError

/-- What a freshly built likelihood holds about data. -/
structure Built (F : Type) where
  binsOn : List String
  data : List (List (Option F))
  bins : Comp.Bins F
  dataHist : List (List F)

/-- `__init__` (likelihood.py 49-100); `load` is the data file read through `load_data` and the columns `bins_on`. -/
def init (eq : Equi F) (cfg : Config F) (load : List String → Res (List (List (Option F)))) : Res (Built F) := do
  let (on, specs) ← normalise cfg.binsOn cfg.bins
  sanityCheck on specs
  let rows ← load on
  let data ← select on.length cfg rows
  let (bins, h) ← setBinning eq on.length cfg specs data
  return { binsOn := on, data := data, bins := bins, dataHist := h }

end

/-! ### Components and aliases, likelihood.py 239-291 -/

section
variable {K V : Type}

/-- Histograms as rows. -/
abbrev Grid (V : Type) := List (List V)

/-- A registered component. -/
inductive LComp (K V : Type)
  | sim (needed : List String) (hist weighted : K → Int → PyDict String V → Res (K × Grid V))
  | fixed (needed : List String) (hist weighted : PyDict String V → Res (Grid V))
  | other (needed : List String)

/-- `component.needed_parameters`. -/
def LComp.needed : LComp K V → List String
  | .sim n _ _ => n
  | .fixed n _ _ => n
  | .other n => n

/-- The mutable part of a likelihood. -/
structure State (K V : Type) where
  components : PyDict String (LComp K V) := []
  needed : List String := []

/-- One alias substituted in the needed parameters (likelihood.py 276-279); a set is a list of its elements. -/
def aliasNeeded (needed : List String) (kv : String × String) : List String :=
  if kv.2 ∈ needed then (if kv.1 ∈ needed then needed else needed ++ [kv.1]).filter (fun x => x ≠ kv.2) else needed

/-- `register_component` (likelihood.py 239-279); `build` constructs, deduces and compiles the component. -/
def register (al : PyDict String String) (s : State K V) (name : String) (build : Res (LComp K V)) :
    State K V × Res Unit :=
  if s.components.has name then (s, .error .valueError)
  else match build with
    | .error e => (s, .error e)
    | .ok c =>
      ({ components := s.components.set name c
         needed := al.foldl aliasNeeded (s.needed ++ c.needed.filter (fun x => x ∉ s.needed)) }, .ok ())

/-- One alias replaced in parameters (likelihood.py 289-290). -/
def aliasStep (p : PyDict String V) (kv : String × String) : PyDict String V :=
  match p.get? kv.1 with
  | none => p
  | some x => (p.del kv.1).set kv.2 x

/-- `replace_alias` (likelihood.py 281-291). -/
def replaceAlias (al : PyDict String String) (p : PyDict String V) : PyDict String V := al.foldl aliasStep p

/-! ### Model histogram and weighted data, likelihood.py 298-339 -/

/-- `hist += _hist` for arrays of equal shape; others raise. -/
def addGrid [Add V] (a b : Grid V) : Res (Grid V) :=
  if a.map List.length = b.map List.length then .ok (List.zipWith (List.zipWith (· + ·)) a b) else .error .valueError

/-- The loop over components (likelihood.py 309-316). -/
def modelLoop [Add V] (batch : Int) (p : PyDict String V) :
    List (String × LComp K V) → K → Grid V → Res (K × Grid V)
  | [], key, acc => .ok (key, acc)
  | (_, c) :: cs, key, acc => match c with
    | .sim _ hist _ => do
      let r ← hist key batch p
      let acc ← addGrid acc r.2
      modelLoop batch p cs r.1 acc
    | .fixed _ hist _ => do
      let h ← hist p
      let acc ← addGrid acc h
      modelLoop batch p cs key acc
    | .other _ => .error .typeError

/-- `np.zeros_like`. -/
def zeros [Zero V] {W : Type} (h : Grid W) : Grid V := h.map (fun r => r.map (fun _ => 0))

/-- `_simulate_model_hist` (likelihood.py 298-317), with its decorator. -/
def simulateModelHist [Add V] [Zero V] {W : Type} (al : PyDict String String) (dataHist : Grid W) (s : State K V)
    (key : K) (batch : Int) (p : PyDict String V) : Res (K × Grid V) :=
  modelLoop batch (replaceAlias al p) s.components key (zeros dataHist)

/-- The loop of `simulate_weighted_data` (likelihood.py 329-337). -/
def weightedLoop (batch : Int) (p : PyDict String V) :
    List (String × LComp K V) → K → List (Grid V) → Res (K × List (Grid V))
  | [], key, acc => .ok (key, acc)
  | (_, c) :: cs, key, acc => match c with
    | .sim _ _ weighted => do
      let r ← weighted key batch p
      weightedLoop batch p cs r.1 (acc ++ [r.2])
    | .fixed _ _ weighted => do
      let r ← weighted p
      weightedLoop batch p cs key (acc ++ [r])
    | .other _ => .error .typeError

/-- `np.hstack` of two-dimensional arrays given by their rows: row by row concatenation, equal numbers of rows. -/
def hstack : List (Grid V) → Res (Grid V)
  | [] => .error .valueError
  | g :: gs => if gs.all (fun h => h.length = g.length) then .ok (gs.foldl (List.zipWith (· ++ ·)) g)
    else .error .valueError

/-- `simulate_weighted_data` (likelihood.py 319-339), with its decorator. -/
def simulateWeighted (al : PyDict String String) (s : State K V) (key : K) (batch : Int) (p : PyDict String V) :
    Res (K × Grid V) := do
  let r ← weightedLoop batch (replaceAlias al p) s.components key []
  let h ← hstack r.2
  return (r.1, h)

end

/-- What a simulated component is built from: its settings, the name of its rate and its compiled simulator. -/
structure SimDesc (K F : Type) where
  cfg : Comp.HistCfg F
  forceNoEff : Bool
  rateName : String
  needed : List String
  run : K → Int → PyDict String F → Res (K × List (List F))

/-- `ComponentSim.simulate_hist` and `simulate_weighted_data` (component.py 448-484) as a registered component. -/
def SimDesc.comp {K F : Type} [Field F] [LinearOrder F] (d : SimDesc K F) : LComp K F :=
  .sim d.needed
    (fun key batch p => do
      let r ← d.run key batch p
      let rate ← p.getItem d.rateName
      let h ← Comp.simulateHist d.cfg d.forceNoEff r.2 rate batch
      return (r.1, h))
    (fun key batch p => do
      let r ← d.run key batch p
      let rate ← p.getItem d.rateName
      let me ← Comp.splitEff 1 false r.2
      let w ← Comp.simulateWeighted d.cfg me.1 me.2 rate batch
      return (r.1, w.1 ++ [w.2]))

/-- `ComponentFixed.simulate_hist` and `simulate_weighted_data` (component.py 622-636) as a registered component. -/
def fixedComp {K F : Type} [Field F] [LinearOrder F] (c : Comp.FixedComp F) (rateName : String) : LComp K F :=
  .fixed c.needed
    (fun p => do
      let rate ← p.getItem rateName
      Comp.fixedHist c rate)
    (fun p => do
      let rate ← p.getItem rateName
      let w ← Comp.fixedWeighted c rate
      return w.1 ++ [w.2])

/-! ### The binned log likelihood, likelihood.py 341-375 -/

section
variable {K : Type}

instance : Zero XF := ⟨.fin 0⟩

open Classical in
/-- `np.any(model_hist <= 0)`. -/
noncomputable def anyNonPositive (h : Grid XF) : Bool := h.flatten.any (fun x => decide (x ≤ .fin 0))

open Classical in
/-- `np.any(np.isnan(model_hist)) or np.any(np.isinf(model_hist))`. -/
noncomputable def anyNotFinite (h : Grid XF) : Bool := h.flatten.any (fun x => decide (¬ x.isFinite))

/-- `np.sum(data * np.log(model) - model)`. -/
noncomputable def poisson (data : Grid ℝ) (h : Grid XF) : XF :=
  XF.sum (List.zipWith (fun d m => .fin d * XF.log m + -m) data.flatten h.flatten)

open Classical in
/-- The value from the model histogram (likelihood.py 354-375). -/
noncomputable def llhOf (data : Grid ℝ) (h : Grid XF) : Res XF :=
  if anyNonPositive h then .ok .ninf
  else if anyNotFinite h then .ok .ninf
  else if (poisson data h).isNaN then .error .valueError
  else .ok (poisson data h)

/-- `get_log_likelihood` (likelihood.py 341-375), with its decorator. -/
noncomputable def getLogLikelihood (al : PyDict String String) (data : Grid ℝ) (s : State K XF) (key : K)
    (batch : Int) (p : PyDict String XF) : Res (K × XF) := do
  let r ← simulateModelHist al data s key batch (replaceAlias al p)
  let v ← llhOf data r.2
  return (r.1, v)

/-- `get_num_events_accepted` (likelihood.py 377-388), with its decorator; the key is fresh. -/
noncomputable def getNumEvents (al : PyDict String String) (data : Grid ℝ) (s : State K XF) (key : K)
    (batch : Int) (p : PyDict String XF) : Res XF := do
  let r ← simulateModelHist al data s key batch (replaceAlias al p)
  return XF.sum r.2.flatten

/-! ### `TwoHalfNorm.logpdf` and `BandTwoHalfNorm`, randgen.py 559-615 -/

open Classical in
/-- `TwoHalfNorm.logpdf` at one point (randgen.py 580-587), after the assertion. -/
noncomputable def twoHalfLogpdf (x mu sp sn : XF) : XF :=
  let norm := .fin 2 / (sp + sn) / .fin (√(2 * Real.pi))
  let d := x + -mu
  (if x < mu then (-(d * d)) / (sn * sn) / (.fin 2) else (-(d * d)) / (sp * sp) / (.fin 2)) + XF.log norm

/-- The distributions a literature likelihood can use, with their arguments. -/
inductive Shape
  | twohalfnorm (mu sp sn : List ℝ)
  | norm (loc scale : List ℝ)
  | band (x y up lo : List ℝ)

open Classical in
/-- `scipy.stats.norm.logpdf` at one point. -/
noncomputable def normLogpdf (x : XF) (loc scale : ℝ) : XF :=
  if 0 < scale then
    let z := (x + -(.fin loc)) / .fin scale
    (-(z * z)) / (.fin 2) + -(.fin (Real.log (√(2 * Real.pi)))) + -(.fin (Real.log scale))
  else .nan

open Classical in
/-- `interp1d(x, y, bounds_error=False, fill_value=np.nan)` at one point: NaN outside the table and for a non-finite
argument, else linear between neighbours. -/
noncomputable def interp1d (xs ys : List ℝ) : XF → XF
  | .fin x => match xs.head?, xs.getLast? with
    | some a, some b => if a ≤ x ∧ x ≤ b then .fin (Interp.linear1d xs ys x) else .nan
    | _, _ => .nan
  | _ => .nan

open Classical in
/-- `BandTwoHalfNorm.logpdf` at one point (randgen.py 600-615). -/
noncomputable def bandLogpdf (xs ys up lo : List ℝ) (x y : XF) : XF :=
  let mu := interp1d xs ys x
  let sp := interp1d xs up x
  let sn := interp1d xs lo x
  let mu' := if mu.isNaN then .fin 0 else mu
  let sp' := if sp.isNaN then .fin 1 else sp
  let sn' := if sn.isNaN then .fin 1 else sn
  if mu.isNaN then .ninf else twoHalfLogpdf y mu' sp' sn'

open Classical in
/-- The assertion of `TwoHalfNorm.logpdf` for a band (randgen.py 580). -/
noncomputable def bandAssert (xs up lo : List ℝ) (energies : List XF) : Bool :=
  energies.all (fun x =>
    let sp := interp1d xs up x
    let sn := interp1d xs lo x
    decide (.fin 0 < (if sp.isNaN then .fin 1 else sp)) && decide (.fin 0 < (if sn.isNaN then .fin 1 else sn)))

/-- The common length of one-dimensional arrays that numpy combines: those of length one are repeated, the others have to agree. -/
def common (lens : List Nat) : Res Nat :=
  let r := lens.filter (· ≠ 1)
  if r.all (· == r.headD 1) then .ok (r.headD 1) else .error .valueError

/-- An array repeated by numpy to a common length. -/
def spread {α : Type} (n : Nat) (l : List α) : List α :=
  match l with
  | [a] => List.replicate n a
  | l => l

open Classical in
/-- `self.logpdf(energies, yields)` (likelihood.py 498-504) with numpy's rules for arrays of different lengths. -/
noncomputable def logpdf (shape : Shape) (energies yields : List XF) : Res (List XF) :=
  match shape with
  | .twohalfnorm mu sp sn =>
    if (∀ s ∈ sp, 0 < s) ∧ (∀ s ∈ sn, 0 < s) then
      (common [yields.length, mu.length, sp.length, sn.length]).map fun n =>
        List.zipWith (fun y a => twoHalfLogpdf y (.fin a.1) (.fin a.2.1) (.fin a.2.2)) (spread n yields)
          ((spread n mu).zip ((spread n sp).zip (spread n sn)))
    else .error .assertionError
  | .norm loc scale =>
    (common [yields.length, loc.length, scale.length]).map fun n =>
      List.zipWith (fun y a => normLogpdf y a.1 a.2) (spread n yields) ((spread n loc).zip (spread n scale))
  | .band xs ys up lo =>
    if bandAssert xs up lo energies then
      (common [energies.length, yields.length]).map fun n =>
        List.zipWith (fun x y => bandLogpdf xs ys up lo x y) (spread n energies) (spread n yields)
    else .error .assertionError

/-! ### `LikelihoodLit`, likelihood.py 461-568 -/

/-- The mutable part of a literature likelihood: components by name, each a simulator, and `only_component`. -/
structure LitState (K : Type) where
  components : PyDict String (K → Int → PyDict String XF → Res (K × Grid XF)) := []
  only : Option String := none

/-- `register_component` (likelihood.py 534-539). -/
def litRegister (s : LitState K) (name : String) (build : Res (K → Int → PyDict String XF → Res (K × Grid XF))) :
    LitState K × Res Unit :=
  if s.components.length ≠ 0 then (s, .error .assertionError)
  else match build with
    | .error e => (s, .error e)
    | .ok c =>
      let comps := s.components.set name c
      ({ components := comps, only := comps.keys.head? }, .ok ())

/-- `_simulate_yields` (likelihood.py 517-532), with its decorator. -/
def simulateYields (al : PyDict String String) (s : LitState K) (key : K) (batch : Int) (p : PyDict String XF) :
    Res (K × Grid XF) :=
  let p := replaceAlias al p
  if s.components.length ≠ 1 then .error .assertionError
  else match s.only with
    | none => .error .attributeError
    | some n => do
      let c ← s.components.getItem n
      c key batch p

open Classical in
/-- `get_log_likelihood` (likelihood.py 541-568), with its decorator. -/
noncomputable def litLogLikelihood (al : PyDict String String) (shape : Shape) (s : LitState K) (key : K)
    (_batch : Int) (p : PyDict String XF) : Res (K × XF) := do
  let r ← simulateYields al s key 1 (replaceAlias al p)
  match r.2 with
  | [energies, yields, eff] =>
    let l ← logpdf shape energies yields
    let n ← common [l.length, eff.length]
    let v := XF.sum (List.zipWith (· * ·) (spread n l) (spread n eff))
    return (r.1, if v.isNaN then .ninf else v)
  | _ => .error .valueError

end
end Verif.Llh
