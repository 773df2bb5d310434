/-
Model of `appletree/context.py`: construction (26-57, 77-134, 445-462), `_sanity_check` (418-428), `get_num_events_accepted`
(147-161), `log_posterior` (163-199) and the starting positions of `fitting` (248-252).

Simplifications.  The JSON file branches are their dict branches after `json.load`.  A likelihood class is applied to its
configuration by `make`, which gives the object without components or raises (an unknown class name, a bad configuration);
a component class is given by what building, deducing and compiling it yields.  `update_parameter_config` stores the same
python object under two names; nothing in the package mutates entries of the configuration, so they are values here.  The
time-based seeds of `get_key()` are arguments.  Warnings, printing and the global configuration set by `__init__`
(`Model/Config.lean`) are left out.
-/
import Verif.Model.Parameter
import Verif.Model.Likelihood

namespace Verif.Ctx
open Verif Parameter

/-! ### Copied parameters, context.py 445-462 -/

/-- The part of a likelihood's instruction read by `update_parameter_config`: `copy_parameters` (`none` if the key is missing)
and the names of `components`. -/
structure CopyInstr where
  copy : Option (PyDict String String)
  comps : List String

/-- Local variables of `update_parameter_config` and `self.par_config`. -/
structure CopyState (S : Type) where
  parConfig : PyDict String S
  needed : List String := []
  rates : List String := []
  sources : List String := []

section
variable {S : Type}

/-- The loop over `copy_parameters` of one likelihood (context.py 450-455). -/
def copyLoop : List (String × String) → CopyState S → Res (CopyState S)
  | [], st => .ok st
  | (k, v) :: r, st =>
    match st.parConfig.get? v with
    | none => .error .keyError
    | some s => copyLoop r
        { st with
          parConfig := st.parConfig.set k s
          sources := st.sources ++ [v]
          needed := if k ∈ st.needed then st.needed else st.needed ++ [k] }

/-- The loop over likelihoods (context.py 449-457). -/
def likelihoodLoop : List CopyInstr → CopyState S → Res (CopyState S)
  | [], st => .ok st
  | l :: r, st =>
    match l.copy with
    | none => .error .keyError
    | some c => do
      let st ← copyLoop c st
      likelihoodLoop r { st with rates := st.rates ++ l.comps.map (fun k => k ++ "_rate") }

/-- Dropping a source (context.py 458-461). -/
def dropStep (rates : List String) (pc : PyDict String S) (p : String) : PyDict String S :=
  if p ∉ rates ∧ pc.has p then pc.del p else pc

/-- `update_parameter_config` (context.py 445-462): the new `par_config` and the needed parameters. -/
def updateParameterConfig (ls : List CopyInstr) (pc : PyDict String S) : Res (PyDict String S × List String) := do
  let st ← likelihoodLoop ls { parConfig := pc }
  return (st.sources.foldl (dropStep st.rates) st.parConfig, st.needed)

end

/-! ### The context and its likelihoods, context.py 77-134 -/

section
variable {K : Type}

/-- What building a component yields: its histograms and parameters, and its `simulate`. -/
structure CompBuild (K : Type) where
  comp : Llh.LComp K XF
  simulate : K → Int → PyDict String XF → Res (K × Llh.Grid XF)

/-- A likelihood object: `Likelihood` or `LikelihoodLit`. -/
inductive Obj (K : Type)
  | binned (al : PyDict String String) (data : Llh.Grid ℝ) (st : Llh.State K XF)
  | lit (al : PyDict String String) (shape : Llh.Shape) (needed : List String) (st : Llh.LitState K)

/-- `likelihood.needed_parameters`. -/
def Obj.needed : Obj K → List String
  | .binned _ _ st => st.needed
  | .lit _ _ n _ => n

/-- `likelihood.register_component` (likelihood.py 239-279, 534-539). -/
def Obj.register (o : Obj K) (name : String) (b : Res (CompBuild K)) : Obj K × Res Unit :=
  match o with
  | .binned al data st =>
    let r := Llh.register al st name (b.map CompBuild.comp)
    (.binned al data r.1, r.2)
  | .lit al shape needed st =>
    match Llh.litRegister st name (b.map CompBuild.simulate), b with
    | (st', .ok ()), .ok c =>
      (.lit al shape (al.foldl Llh.aliasNeeded (needed ++ c.comp.needed.filter (fun x => x ∉ needed))) st', .ok ())
    | (st', r), _ => (.lit al shape needed st', r)

/-- `likelihood.get_log_likelihood` (likelihood.py 341-375, 541-568). -/
noncomputable def Obj.logL (o : Obj K) (key : K) (batch : Int) (p : PyDict String XF) : Res (K × XF) :=
  match o with
  | .binned al data st => Llh.getLogLikelihood al data st key batch p
  | .lit al shape _ st => Llh.litLogLikelihood al shape st key batch p

/-- The attributes of a context that the functions below use. -/
structure Ctx (K : Type) where
  parConfig : Config
  pm : PM
  needed : List String
  likelihoods : PyDict String (Obj K) := []

/-- One entry of `instruct["likelihoods"]`: its class applied to its configuration, what `update_parameter_config` reads, and
what each component class yields. -/
structure LInstr (K : Type) where
  make : Res (Obj K)
  copy : Option (PyDict String String)
  comps : PyDict String (Res (CompBuild K))

/-- `a |= b` for sets as lists. -/
def setUnion (a b : List String) : List String := a ++ b.filter (fun x => x ∉ a)

/-- `register_likelihood` (context.py 103-116). -/
def registerLikelihood (c : Ctx K) (name : String) (make : Res (Obj K)) : Ctx K × Res Unit :=
  if c.likelihoods.has name then (c, .error .valueError)
  else match make with
    | .error e => (c, .error e)
    | .ok o => ({ c with likelihoods := c.likelihoods.set name o }, .ok ())

/-- `register_component` (context.py 118-134). -/
def registerComponent (c : Ctx K) (lname cname : String) (b : Res (CompBuild K)) : Ctx K × Res Unit :=
  match c.likelihoods.get? lname with
  | none => (c, .error .keyError)
  | some o =>
    match o.register cname b with
    | (o', .error e) => ({ c with likelihoods := c.likelihoods.set lname o' }, .error e)
    | (o', .ok ()) =>
      ({ c with
         likelihoods := c.likelihoods.set lname o'
         needed := setUnion c.needed o'.needed }, .ok ())

/-- The inner loop of `register_all_likelihood` (context.py 91-101). -/
def registerComps (lname : String) : List (String × Res (CompBuild K)) → Ctx K → Ctx K × Res Unit
  | [], c => (c, .ok ())
  | (n, b) :: r, c =>
    match registerComponent c lname n b with
    | (c', .error e) => (c', .error e)
    | (c', .ok ()) => registerComps lname r c'

/-- `register_all_likelihood` (context.py 77-101). -/
def registerAll : List (String × LInstr K) → Ctx K → Ctx K × Res Unit
  | [], c => (c, .ok ())
  | (n, l) :: r, c =>
    match registerLikelihood c n l.make with
    | (c', .error e) => (c', .error e)
    | (c', .ok ()) =>
      match registerComps n l.comps c' with
      | (c'', .error e) => (c'', .error e)
      | (c'', .ok ()) => registerAll r c''

/-- `__init__` (context.py 26-57) once `par_config` is a dict; `draw` are the draws of `Parameter(par_config)`. -/
noncomputable def mk (sig : Solver) (draw : String → ℝ) (pc : Config) (ls : PyDict String (LInstr K)) : Res (Ctx K) := do
  let r ← updateParameterConfig (ls.map (fun l => ⟨l.2.copy, l.2.comps.keys⟩)) pc
  match Parameter.mk sig draw r.1 with
  | (_, .error e) => .error e
  | (pm, .ok ()) =>
    match registerAll ls { parConfig := r.1, pm := pm, needed := r.2 } with
    | (_, .error e) => .error e
    | (c, .ok ()) => return c

/-- The choice of the parameter configuration in `__init__` (context.py 48-52): the argument, or the file named in the
instruction (`load_json`; a missing file is a RuntimeError, a missing entry a KeyError). -/
def chooseParConfig (files : String → Option Config) (named : Option String) (arg : Option Config) : Res Config :=
  match arg with
  | some c => .ok c
  | none =>
    match named with
    | none => .error .keyError
    | some f =>
      match files f with
      | none => .error .runtimeError
      | some c => .ok c

/-- `__init__`, and `cls(instruct)` in `from_backend` (context.py 66) with no argument. -/
noncomputable def init (sig : Solver) (draw : String → ℝ) (files : String → Option Config) (named : Option String)
    (arg : Option Config) (ls : PyDict String (LInstr K)) : Res (Ctx K) := do
  let pc ← chooseParConfig files named arg
  mk sig draw pc ls

/-- `_sanity_check` (context.py 418-428). -/
def sanityCheck (c : Ctx K) : Res Unit :=
  if ∀ p ∈ c.pm.vals.keys, p ∈ c.needed then .ok () else .error .runtimeError

/-! ### `get_num_events_accepted` and `log_posterior`, context.py 147-199 -/

/-- `get_num_events_accepted` (context.py 147-161); each likelihood takes a key of its own, and literature likelihoods are
left out. -/
noncomputable def numEventsLoop (batch : Int) (p : PyDict String XF) (keyOf : String → K) :
    List (String × Obj K) → XF → Res XF
  | [], acc => .ok acc
  | (n, .binned al data st) :: r, acc => do
    let v ← Llh.getNumEvents al data st (keyOf n) batch p
    numEventsLoop batch p keyOf r (acc + v)
  | (_, .lit ..) :: r, acc => numEventsLoop batch p keyOf r acc

noncomputable def numEvents (batch : Int) (p : PyDict String XF) (keyOf : String → K) (c : Ctx K) : Res XF :=
  numEventsLoop batch p keyOf c.likelihoods (.fin 0)

/-- The loop of `_log_posterior_once` (context.py 178-187). -/
noncomputable def onceLoop (batch : Int) (p : PyDict String XF) : List (String × Obj K) → K → XF → Res XF
  | [], _, acc => .ok acc
  | (_, o) :: r, key, acc => do
    let kv ← o.logL key batch p
    onceLoop batch p r kv.1 (acc + kv.2)

/-- `_log_posterior_once` (context.py 176-187). -/
noncomputable def once (c : Ctx K) (batch : Int) (key : K) (logPrior : XF) : Res XF := do
  let s ← onceLoop batch c.pm.vals c.likelihoods key (.fin 0)
  return s + logPrior

/-- The branch on `repeat_times` (context.py 189-197); `keys i` is the key made in repeat `i`. -/
noncomputable def repeated (c : Ctx K) (batch repeats : Int) (keys : Nat → K) (logPrior : XF) : Res XF :=
  if 1 < repeats then do
    let vs ← (List.range repeats.toNat).mapM (fun i => once c batch (keys i) logPrior)
    return XF.sum vs / .fin vs.length
  else once c batch (keys 0) logPrior

open Classical in
/-- `log_posterior` (context.py 163-199); `order` is the order in which `log_prior` walks the set of fitted names. -/
noncomputable def logPosterior (sig : Solver) (order : List String) (keys : Nat → K) (c : Ctx K) (params : Keys)
    (batch repeats : Int) : Ctx K × Res (XF × XF) :=
  match setParameter c.pm params .none with
  | (pm, .error e) => ({ c with pm := pm }, .error e)
  | (pm, .ok ()) =>
    let c' := { c with pm := pm }
    (c', do
      let lp ← logPriorOver sig pm order
      if ¬ lp.isFinite then return (.ninf, lp)
      else
        let v ← repeated c' batch repeats keys lp
        return (v, lp))

/-! ### Starting positions, context.py 248-252 -/

/-- The loop building `p0` (context.py 248-252); `draws i` are the draws of walker `i`. -/
noncomputable def startLoop (draws : Nat → String → ℝ) : Nat → PM → PM × Res (List Got)
  | 0, pm => (pm, .ok [])
  | n + 1, pm =>
    match sampleInit (draws 0) pm with
    | (pm', .error e) => (pm', .error e)
    | (pm', .ok ()) =>
      match parameterFitArray pm' with
      | .error e => (pm', .error e)
      | .ok row =>
        match startLoop (fun i => draws (i + 1)) n pm' with
        | (pm'', .error e) => (pm'', .error e)
        | (pm'', .ok rows) => (pm'', .ok (row :: rows))

/-- `fitting` up to the sampler (context.py 246-252). -/
noncomputable def startPositions (draws : Nat → String → ℝ) (nwalkers : Nat) (c : Ctx K) : Ctx K × Res (List Got) :=
  match sanityCheck c with
  | .error e => (c, .error e)
  | .ok () =>
    let r := startLoop draws nwalkers c.pm
    ({ c with pm := r.1 }, r.2)

end
end Verif.Ctx
