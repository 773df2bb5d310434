/-
Model of how a context reads its instruction: `Context.__init__`, `register_all_likelihood`, `register_likelihood`,
`register_component` and `update_parameter_config` (appletree/context.py 26-57, 77-134, 435-462), and what the constructors of the
likelihoods take from their entry (likelihood.py 49-100 and 470-508).

Simplifications.  An instruction is a value as json gives it.  What the package does with the items it has read (reading files,
setting options, building likelihoods and components) is given by functions of these items alone; `Model/Likelihood.lean`,
`Model/Session.lean` and `Model/Contexts.lean` model it.  A `type` that names something of the package that is not a likelihood
class raises TypeError when it is called.  A parameter file that does not hold a dictionary raises AttributeError at once.
-/
import Verif.Base.Py
import Mathlib.Data.Rat.Defs

namespace Verif.Instr
open Verif

/-- A json value. -/
inductive Val
  | null
  | bool (b : Bool)
  | int (n : Int)
  | float (q : ℚ)
  | str (s : String)
  | list (l : List Val)
  | dict (d : List (String × Val))

/-- `v.items()`, `v.keys()`, `v.values()`, `v.get(…)`: only of a dictionary. -/
def Val.items : Val → Res (PyDict String Val)
  | .dict d => .ok d
  | _ => .error .attributeError

/-- `v[k]` with a string. -/
def Val.item (v : Val) (k : String) : Res Val :=
  match v with
  | .dict d => PyDict.getItem d k
  | _ => .error .typeError

/-- `d[v]` for a dictionary with string keys: lists and dictionaries cannot be looked up. -/
def lookup (d : PyDict String Val) : Val → Res Val
  | .str s => d.getItem s
  | .list _ => .error .typeError
  | .dict _ => .error .typeError
  | _ => .error .keyError

/-- What `Likelihood` reads (likelihood.py 62-100, 188-237): four items that must be there and those read when they are needed. -/
structure Binned where
  data : Val
  binsType : Val
  binsOn : Val
  bins : Val
  al : Option Val
  clip : Option Val
  xClip : Option Val
  yClip : Option Val
  integer : Option Val
  left : Option Val

/-- What `LikelihoodLit` reads (likelihood.py 483-495). -/
structure Lit where
  binsOn : Val
  al : Option Val
  logpdfArgs : Val
  variableType : Val

inductive LItems
  | binned (b : Binned)
  | lit (l : Lit)

/-- The items read by `Likelihood.__init__`, in order (likelihood.py 66-70). -/
def readBinned (d : PyDict String Val) : Res LItems := do
  let data ← d.getItem "data_file_name"
  let binsType ← d.getItem "bins_type"
  let binsOn ← d.getItem "bins_on"
  let bins ← d.getItem "bins"
  return .binned { data, binsType, binsOn, bins, al := d.get? "parameter_alias", clip := d.get? "clip", xClip := d.get? "x_clip",
                   yClip := d.get? "y_clip", integer := d.get? "integer", left := d.get? "left" }

/-- The items read by `LikelihoodLit.__init__`, in order (likelihood.py 485-495). -/
def readLit (d : PyDict String Val) : Res LItems := do
  let binsOn ← d.getItem "bins_on"
  let logpdfArgs ← d.getItem "logpdf_args"
  let variableType ← d.getItem "variable_type"
  return .lit { binsOn, al := d.get? "parameter_alias", logpdfArgs, variableType }

/-- An attribute of the package `appletree`. -/
inductive Attr
  | likelihood
  | lit
  | other

/-- A component: its class and the file name. -/
structure CompItems where
  cls : String
  file : Val

/-- Everything outside: the json files, the attributes of `appletree` and of `appletree.components`, setting options, making the
parameters, a likelihood from its items, and a component. -/
structure Env where
  loadJson : Val → Res Val
  apt : String → Option Attr
  components : String → Bool
  setOptions : PyDict String Val → Res Unit
  parameter : PyDict String Val → Res Unit
  likelihood : String → LItems → Res Unit
  component : String → String → CompItems → Res Unit

/-- What was done, in order. -/
inductive Event
  | options (d : PyDict String Val)
  | file (name : Val)
  | parameter (d : PyDict String Val)
  | likelihood (name : String) (items : LItems)
  | component (llh name : String) (items : CompItems)

/-- A part of the constructor: the events, and the result. -/
abbrev Act (α : Type) := List Event × Res α

/-- One thing after the other; an exception ends it. -/
def andThen {α β : Type} (x : Act α) (f : α → Act β) : Act β :=
  match x with
  | (ev, .error e) => (ev, .error e)
  | (ev, .ok a) => (ev ++ (f a).1, (f a).2)

/-- Something that is only read. -/
def quiet {α : Type} (r : Res α) : Act α := ([], r)

/-- The loop over `copy_parameters` (context.py 450-455): the new `par_config` and the sources. -/
def copyLoop (pc : PyDict String Val) (src : List String) : PyDict String Val → Res (PyDict String Val × List String)
  | [] => .ok (pc, src)
  | (k, v) :: cs => do
    let x ← lookup pc v
    copyLoop (pc.set k x) (match v with | .str s => src ++ [s] | _ => src) cs

/-- The loop over likelihoods (context.py 449-457): `par_config`, the sources and the names of the rates. -/
def parLoop (pc : PyDict String Val) (src rates : List String) : PyDict String Val → Res (PyDict String Val × List String × List String)
  | [] => .ok (pc, src, rates)
  | (_, l) :: ls => do
    let copies ← l.item "copy_parameters"
    let cs ← copies.items
    let (pc, src) ← copyLoop pc src cs
    let comps ← l.item "components"
    let names ← comps.items
    parLoop pc src (rates ++ names.keys.map (· ++ "_rate")) ls

/-- `update_parameter_config` (context.py 445-462). -/
def updatePar (pc : PyDict String Val) (likelihoods : Val) : Res (PyDict String Val) := do
  let ls ← likelihoods.items
  let (pc, src, rates) ← parLoop pc [] [] ls
  return src.foldl (fun pc p => if p ∈ rates then pc else pc.del p) pc

/-- The class of a likelihood, `getattr(appletree, …)` (context.py 111). -/
def likelihoodClass (E : Env) (d : PyDict String Val) : Res Attr :=
  match d.get? "type" with
  | none => .ok .likelihood
  | some (.str t) => match E.apt t with
    | some a => .ok a
    | none => .error .attributeError
  | some _ => .error .typeError

/-- `register_likelihood` (context.py 103-116); the name is given beside the items, so that they may not have it. -/
def registerLikelihood (E : Env) (done : List String) (name : String) (l : Val) : Act Unit :=
  if name ∈ done then quiet (.error .valueError)
  else andThen (quiet l.items) fun d =>
    andThen (quiet (likelihoodClass E d)) fun a =>
      if d.has "name" || d.has "self" then quiet (.error .typeError)
      else
        let make (r : Res LItems) : Act Unit := andThen (quiet r) fun it => ([.likelihood name it], E.likelihood name it)
        match a with
        | .likelihood => make (readBinned d)
        | .lit => make (readLit d)
        | .other => quiet (.error .typeError)

/-- Which class and which file (context.py 93-101). -/
def readComponent (E : Env) (v : Val) : Res CompItems := do
  let get (c : Val) : Res String := match c with
    | .str s => if E.components s then .ok s else .error .attributeError
    | _ => .error .typeError
  match v with
  | .str s => return { cls := (← get (.str s)), file := .null }
  | v =>
    let c ← v.item "component_cls"
    let cls ← get c
    let d ← v.items
    return { cls, file := (d.get? "file_name").getD .null }

/-- The loop over the components of a likelihood (context.py 91-101). -/
def compLoop (E : Env) (llh : String) : PyDict String Val → Act Unit
  | [] => quiet (.ok ())
  | (k, v) :: cs =>
    andThen (quiet (readComponent E v)) fun it =>
      andThen ([.component llh k it], E.component llh k it) fun _ => compLoop E llh cs

/-- `register_all_likelihood` (context.py 77-101). -/
def likelihoodLoop (E : Env) (done : List String) : PyDict String Val → Act Unit
  | [] => quiet (.ok ())
  | (name, l) :: ls =>
    andThen (registerLikelihood E done name l) fun _ =>
      andThen (quiet (l.item "components" >>= Val.items)) fun cs =>
        andThen (compLoop E name cs) fun _ => likelihoodLoop E (done ++ [name]) ls

/-- What of the context is fixed at the end. -/
structure Made where
  config : PyDict String Val
  backend : Option Val
  parConfig : PyDict String Val

/-- `url_base` and `configs` (context.py 36-42). -/
def readOptions (E : Env) (d : PyDict String Val) : Act (PyDict String Val) :=
  andThen (match d.get? "url_base" with
    | none => quiet (.ok ())
    | some u => ([.options [("url_base", u)]], E.setOptions [("url_base", u)])) fun _ =>
    andThen (quiet (((d.get? "configs").getD (.dict [])).items)) fun cfg =>
      andThen ([.options cfg], E.setOptions cfg) fun _ => quiet (.ok cfg)

/-- `par_config` (context.py 48-52). -/
def readPar (E : Env) (d : PyDict String Val) (arg : Option (PyDict String Val)) : Act (PyDict String Val) :=
  match arg with
  | some pc => quiet (.ok pc)
  | none => andThen (quiet (d.getItem "par_config")) fun p =>
      andThen ([.file p], E.loadJson p) fun v => quiet v.items

/-- `Context.__init__` with a dictionary (context.py 36-57); `arg` is the argument `par_config`. -/
def create (E : Env) (d : PyDict String Val) (arg : Option (PyDict String Val)) : Act Made :=
  andThen (readOptions E d) fun cfg =>
    andThen (readPar E d arg) fun pc =>
      andThen (quiet (d.getItem "likelihoods")) fun ls =>
        andThen (quiet (updatePar pc ls)) fun pc =>
          andThen ([.parameter pc], E.parameter pc) fun _ =>
            andThen (quiet ls.items) fun l =>
              andThen (likelihoodLoop E [] l) fun _ => quiet (.ok { config := cfg, backend := d.get? "backend_h5", parConfig := pc })

/-- `Context.__init__` (context.py 26-57): a name is read from a file first. -/
def init (E : Env) (instruct : Val) (arg : Option (PyDict String Val)) : Act Made :=
  match instruct with
  | .str s => andThen ([.file (.str s)], E.loadJson (.str s)) fun v => andThen (quiet v.items) fun d => create E d arg
  | v => andThen (quiet v.items) fun d => create E d arg

end Verif.Instr
