/-
Model of `appletree/parameter.py`: the class `Parameter`.

Simplifications: the JSON file branch of `__init__` (parameter.py 21-23) is the dict branch after
`json.load`; every configured entry carries the keys its prior type needs (a missing key would be a
KeyError); numbers are exact.  Random draws are an argument (`draw`): the value numpy returned for
that parameter.  `errors_to_two_half_norm_sigmas` (utils.py 653-675, external root finder) is an
argument `sig`, `none` meaning that its assertion fails.
-/
import Verif.Base.Py
import Verif.Base.XF
import Mathlib.Data.List.Sort
import Mathlib.Analysis.Real.Sqrt
import Mathlib.Analysis.SpecialFunctions.Trigonometric.Basic
import Mathlib.Data.String.Basic

namespace Verif.Parameter
open Verif

/-- `prior_type` with its `prior_args` (parameter.py 75-110, 148-170).  `other` is any other string. -/
inductive Prior
  | norm (mean std : ℝ)
  | twohalfnorm (mu sigmaPos sigmaNeg : ℝ)
  | uniform (lower upper : ℝ)
  | free
  | fixed (val : ℝ)
  | other

/-- One entry of `par_config`. `none` stands for JSON `null`. -/
structure Setting where
  prior : Prior
  allowed : Option (ℝ × ℝ)
  init : Option (ℝ × ℝ)      -- (init_mean, init_std)

/-- `prior_type == "fixed"`. -/
def Prior.isFixed : Prior → Bool
  | .fixed _ => true
  | _ => false

abbrev Config := PyDict String Setting
abbrev Store := PyDict String XF

/-- The object: `par_config`, `_parameter_fixed`, `_parameter_fit`, `_parameter_dict`. -/
structure PM where
  config : Config
  fixedNames : List String
  fitNames : List String
  vals : Store

/-- External solver `errors_to_two_half_norm_sigmas` (utils.py 653-675). -/
abbrev Solver := ℝ × ℝ → Option (ℝ × ℝ)

/-- `np.clip(val, lo, hi)` = `minimum(maximum(val, lo), hi)`. -/
noncomputable def clip (v lo hi : ℝ) : ℝ := min (max v lo) hi

/-- `np.clip(val, *setting["allowed_range"])`; unpacking `None` is a TypeError. -/
noncomputable def clipRange (s : Setting) (v : ℝ) : Res XF :=
  match s.allowed with
  | none => .error .typeError
  | some (lo, hi) => .ok (.fin (clip v lo hi))

/-- `np.random.normal(loc, scale)` raises ValueError for a negative scale. -/
noncomputable def drawNormal (scale v : ℝ) : Res ℝ := if scale < 0 then .error .valueError else .ok v

/-- `np.random.normal(loc=init_mean, scale=init_std)`; `None` arguments are a TypeError. -/
noncomputable def drawInit (s : Setting) (v : ℝ) : Res ℝ :=
  match s.init with
  | none => .error .typeError
  | some (_, std) => drawNormal std v

/-- Body of the loop of `sample_prior` for one parameter (parameter.py 69-110): the new value. -/
noncomputable def samplePriorOne (sig : Solver) (s : Setting) (v : ℝ) (old : XF) : Res XF :=
  match s.prior with
  | .norm _ std => do let v ← drawNormal std v; clipRange s v
  | .twohalfnorm _ sp sn =>
    match sig (sp, sn) with
    | none => .error .assertionError
    | some (a, b) => if 0 < a ∧ 0 < b then clipRange s v else .error .assertionError
  | .uniform _ _ => clipRange s v
  | .free => do let v ← drawInit s v; clipRange s v
  | .fixed val => .ok (.fin val)
  | .other => .ok old

/-- Body of the loop of `sample_init` for one parameter (parameter.py 115-132). -/
noncomputable def sampleInitOne (s : Setting) (v : ℝ) : Res XF :=
  match s.prior with
  | .fixed val => .ok (.fin val)
  | _ => do let v ← drawInit s v; clipRange s v

/-- The loop `for par_name in self._parameter_dict: ... self._parameter_dict[par_name] = ...`
(parameter.py 68-110, 115-132).  An exception leaves the values written so far. -/
noncomputable def sampleLoop (config : Config) (one : String → Setting → XF → Res XF) :
    List String → Store → Store × Res Unit
  | [], st => (st, .ok ())
  | n :: ns, st =>
    match config.get? n with
    | none => (st, .error .runtimeError)
    | some s =>
      match st.get? n with
      | none => (st, .error .keyError)
      | some old =>
        match one n s old with
        | .error e => (st, .error e)
        | .ok v => sampleLoop config one ns (st.set n v)

/-- `sample_prior` (parameter.py 62-110). -/
noncomputable def samplePrior (sig : Solver) (draw : String → ℝ) (pm : PM) : PM × Res Unit :=
  let r := sampleLoop pm.config (fun n s old => samplePriorOne sig s (draw n) old) pm.vals.keys pm.vals
  ({ pm with vals := r.1 }, r.2)

/-- `sample_init` (parameter.py 112-132). -/
noncomputable def sampleInit (draw : String → ℝ) (pm : PM) : PM × Res Unit :=
  let r := sampleLoop pm.config (fun n s _ => sampleInitOne s (draw n)) pm.vals.keys pm.vals
  ({ pm with vals := r.1 }, r.2)

/-- `__init__` with a dict and `init_parameter` (parameter.py 13-55), before `sample_prior`. -/
noncomputable def mkRaw (config : Config) : PM where
  config := config
  fixedNames := PyDict.keys (config.filter (fun e => e.2.prior.isFixed))
  fitNames := PyDict.keys (config.filter (fun e => !e.2.prior.isFixed))
  vals := config.map (fun e => (e.1, XF.fin 0))

/-- `Parameter(config)` (parameter.py 13-55). -/
noncomputable def mk (sig : Solver) (draw : String → ℝ) (config : Config) : PM × Res Unit :=
  samplePrior sig draw (mkRaw config)

/-- `init_parameter(seed)` called again (parameter.py 34-55): values reset to 0, the same names are added
to the two sets again, then `sample_prior`. -/
noncomputable def initParameter (sig : Solver) (draw : String → ℝ) (pm : PM) : PM × Res Unit :=
  samplePrior sig draw
    { pm with
      fixedNames := pm.fixedNames ∪ (mkRaw pm.config).fixedNames
      fitNames := pm.fitNames ∪ (mkRaw pm.config).fitNames
      vals := (mkRaw pm.config).vals }

/-- `parameter_fit` (parameter.py 57-60): `sorted(set)`. -/
def parameterFit (pm : PM) : List String := pm.fitNames.mergeSort (fun a b => decide (a ≤ b))

/-- Key arguments of `set_parameter`/`get_parameter`/`check_parameter_exist`. A python `dict`
argument carries its values. -/
inductive Keys
  | str (k : String)
  | list (ks : List String)
  | set (ks : List String)
  | dict (d : PyDict String XF)
  | other

/-- `vals` argument: `None`, a float or int, a sequence, or something else. -/
inductive Vals
  | none
  | num (x : XF)
  | list (xs : List XF)
  | other

/-- `check_parameter_exist(keys)` (parameter.py 174-202). -/
def checkExist (pm : PM) : Keys → Res Bool
  | .list ks => .ok (ks.all pm.vals.has)
  | .set ks => .ok (ks.all pm.vals.has)
  | .str k => .ok (pm.vals.has k)
  | .dict d => .ok (d.keys.all pm.vals.has)
  | .other => .error .valueError

/-- The list branch of `set_parameter` (parameter.py 219-222). -/
def setList (pm : PM) (ks : List String) (xs : List XF) : PM × Res Unit :=
  if ks.length = xs.length then ({ pm with vals := pm.vals.update (ks.zip xs) }, .ok ())
  else (pm, .error .assertionError)

/-- `set_parameter(keys, vals)` (parameter.py 204-228). -/
def setParameter (pm : PM) (keys : Keys) (vals : Vals) : PM × Res Unit :=
  match checkExist pm keys with
  | .error e => (pm, .error e)
  | .ok false => (pm, .error .assertionError)
  | .ok true =>
    match keys, vals with
    | .list ks, .list xs => setList pm ks xs
    | .list _, _ => (pm, .error .typeError)          -- len() of None or of a number
    | .dict d, _ =>                                   -- recursion with list(keys), keys.values()
      if d.keys.all pm.vals.has then setList pm d.keys (d.map Prod.snd)
      else (pm, .error .assertionError)
    | .str k, .num x => ({ pm with vals := pm.vals.set k x }, .ok ())
    | .str _, _ => (pm, .error .assertionError)
    | .set _, _ => (pm, .error .valueError)
    | .other, _ => (pm, .error .valueError)

/-- What `get_parameter` returns: a value or an array. -/
inductive Got
  | one (x : XF)
  | many (xs : List XF)

/-- `__getitem__` (parameter.py 242-249). -/
def getItem (pm : PM) : Keys → Res Got
  | .list ks => do let xs ← ks.mapM pm.vals.getItem; return .many xs
  | .set ks => do let xs ← ks.mapM pm.vals.getItem; return .many xs
  | .str k => do let x ← pm.vals.getItem k; return .one x
  | .dict _ => .error .valueError
  | .other => .error .valueError

/-- `get_parameter` (parameter.py 230-240). -/
def getParameter (pm : PM) (keys : Keys) : Res Got :=
  match checkExist pm keys with
  | .error e => .error e
  | .ok false => .error .assertionError
  | .ok true => getItem pm keys

/-- `parameter_fit_array` (parameter.py 251-254). -/
def parameterFitArray (pm : PM) : Res Got := getParameter pm (.list (parameterFit pm))

/-- `TwoHalfNorm.logpdf` (randgen.py 560-587) for one finite or special `x`; the sigma assertion. -/
noncomputable def thnLogpdf (x : XF) (mu sp sn : ℝ) : Res XF :=
  if 0 < sp ∧ 0 < sn then
    let norm := 2 / (sp + sn) / Real.sqrt (2 * Real.pi)
    let d := x - .fin mu
    let q := if x < .fin mu then -(d * d) / .fin (sn ^ 2) / .fin 2
             else -(d * d) / .fin (sp ^ 2) / .fin 2
    .ok (q + XF.log (.fin norm))
  else .error .assertionError

/-- Body of the loop of `log_prior` (parameter.py 144-170): the term added for one parameter. -/
noncomputable def logPriorTerm (sig : Solver) (s : Setting) (val : XF) : Res XF :=
  match s.allowed with
  | none => .error .typeError
  | some (lo, hi) =>
    if val < .fin lo ∨ .fin hi < val then .ok .ninf
    else match s.prior with
      | .norm mean std => .ok (-((val - .fin mean) * (val - .fin mean)) / .fin 2 / .fin (std ^ 2))
      | .twohalfnorm mu sp sn =>
        match sig (sp, sn) with
        | none => .error .assertionError
        | some (a, b) => thnLogpdf val mu a b
      | _ => .ok (.fin 0)

/-- `log_prior` (parameter.py 134-172) iterating the set of fitted names in the order `order`. -/
noncomputable def logPriorOver (sig : Solver) (pm : PM) (order : List String) : Res XF := do
  let terms ← order.mapM (fun n => do
    let v ← pm.vals.getItem n
    let s ← pm.config.getItem n
    logPriorTerm sig s v)
  return XF.sum terms

/-- One public operation of the object, with its random draws. -/
inductive Op
  | initParameter (draw : String → ℝ)
  | samplePrior (draw : String → ℝ)
  | sampleInit (draw : String → ℝ)
  | setParameter (keys : Keys) (vals : Vals)
  | getParameter (keys : Keys)

/-- Run an operation; the state afterwards also when it raised. -/
noncomputable def step (sig : Solver) (pm : PM) : Op → PM
  | .initParameter d => (Parameter.initParameter sig d pm).1
  | .samplePrior d => (Parameter.samplePrior sig d pm).1
  | .sampleInit d => (Parameter.sampleInit d pm).1
  | .setParameter k v => (Parameter.setParameter pm k v).1
  | .getParameter _ => pm

/-- Run a sequence of operations. -/
noncomputable def run (sig : Solver) (pm : PM) (ops : List Op) : PM := ops.foldl (step sig) pm

end Verif.Parameter
