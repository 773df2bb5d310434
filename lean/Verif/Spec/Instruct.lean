/-
Vocabulary of C107: the items an instruction is documented to have.
-/
import Verif.Model.Context
import Verif.Model.Instruct

namespace Verif.Instr
open Verif

/-- The items of an instruction, of a likelihood and of a component that mean something. -/
def topItems : List String := ["url_base", "configs", "backend_h5", "par_config", "likelihoods"]
def likelihoodItems : List String :=
  ["type", "name", "self", "components", "copy_parameters", "data_file_name", "bins_type", "bins_on", "bins", "parameter_alias", "clip", "x_clip",
   "y_clip", "integer", "left", "logpdf_args", "variable_type"]
def componentItems : List String := ["component_cls", "file_name"]

/-- Only the given items. -/
def keep (known : List String) (d : PyDict String Val) : PyDict String Val := d.filter (fun e => e.1 ∈ known)

/-- The values of a dictionary changed. -/
def inside (f : Val → Val) : Val → Val
  | .dict d => .dict (d.map (fun e => (e.1, f e.2)))
  | v => v

/-- The value of one item changed. -/
def at' (k : String) (f : Val → Val) (d : PyDict String Val) : PyDict String Val := d.map (fun e => if e.1 = k then (e.1, f e.2) else e)

/-- A component, a likelihood and an instruction without the items that mean nothing. -/
def stripComponent : Val → Val
  | .dict d => .dict (keep componentItems d)
  | v => v
def stripLikelihood : Val → Val
  | .dict d => .dict (at' "components" (inside stripComponent) (keep likelihoodItems d))
  | v => v
def strip (d : PyDict String Val) : PyDict String Val := at' "likelihoods" (inside stripLikelihood) (keep topItems d)

/-- The class of a likelihood: `Likelihood` unless an item says otherwise. -/
def ClassOf (E : Env) (d : PyDict String Val) (a : Attr) : Prop :=
  (d.get? "type" = none ∧ a = .likelihood) ∨ ∃ t, d.get? "type" = some (.str t) ∧ E.apt t = some a

/-- The items a likelihood of a class is made of. -/
inductive ItemsOf (d : PyDict String Val) : Attr → LItems → Prop
  | binned {b : Binned} (h1 : d.get? "data_file_name" = some b.data) (h2 : d.get? "bins_type" = some b.binsType)
      (h3 : d.get? "bins_on" = some b.binsOn) (h4 : d.get? "bins" = some b.bins) (h5 : b.al = d.get? "parameter_alias") (h6 : b.clip = d.get? "clip")
      (h7 : b.xClip = d.get? "x_clip") (h8 : b.yClip = d.get? "y_clip") (h9 : b.integer = d.get? "integer") (h10 : b.left = d.get? "left") :
      ItemsOf d .likelihood (.binned b)
  | lit {l : Lit} (h1 : d.get? "bins_on" = some l.binsOn) (h2 : d.get? "logpdf_args" = some l.logpdfArgs)
      (h3 : d.get? "variable_type" = some l.variableType) (h4 : l.al = d.get? "parameter_alias") : ItemsOf d .lit (.lit l)

/-- A component: the name of a class, or a dictionary with `component_cls` and perhaps a `file_name`. -/
inductive CompOf (E : Env) : Val → CompItems → Prop
  | name {s : String} (h : E.components s = true) : CompOf E (.str s) ⟨s, .null⟩
  | dict {d : List (String × Val)} {s : String} {f : Val} (h1 : PyDict.get? d "component_cls" = some (.str s)) (h2 : E.components s = true)
      (h3 : f = (PyDict.get? d "file_name").getD .null) : CompOf E (.dict d) ⟨s, f⟩

/-- The components of a likelihood, each built. -/
def CompsOf (E : Env) (llh : String) (cs : PyDict String Val) (evs : List Event) : Prop :=
  List.Forall₂ (fun (c : String × Val) e => ∃ it, CompOf E c.2 it ∧ E.component llh c.1 it = .ok () ∧ e = Event.component llh c.1 it) cs evs

/-- One likelihood with its components, each built, and what was done for it. -/
def LikelihoodOf (E : Env) (l : String × Val) (evs : List Event) : Prop :=
  ∃ d a it cs evc, l.2 = .dict d ∧ "name" ∉ PyDict.keys d ∧ "self" ∉ PyDict.keys d ∧ ClassOf E d a ∧ ItemsOf d a it ∧ E.likelihood l.1 it = .ok () ∧
    PyDict.get? d "components" = some (.dict cs) ∧ CompsOf E l.1 cs evc ∧ evs = .likelihood l.1 it :: evc

/-- The options an instruction sets: `url_base` first if it is there, then `configs`, none if it is missing. -/
def OptionsOf (E : Env) (d cfg : PyDict String Val) (evs : List Event) : Prop :=
  ∃ u, ((d.get? "url_base" = none ∧ u = []) ∨
      ∃ v, d.get? "url_base" = some v ∧ E.setOptions [("url_base", v)] = .ok () ∧ u = [.options [("url_base", v)]]) ∧
    ((d.get? "configs" = none ∧ cfg = []) ∨ d.get? "configs" = some (.dict cfg)) ∧ E.setOptions cfg = .ok () ∧ evs = u ++ [.options cfg]

/-- The parameters: those given, or those in the file the instruction names. -/
def ParOf (E : Env) (d : PyDict String Val) (arg : Option (PyDict String Val)) (pc : PyDict String Val) (evs : List Event) : Prop :=
  (arg = some pc ∧ evs = []) ∨ (arg = none ∧ ∃ p, d.get? "par_config" = some p ∧ E.loadJson p = .ok (.dict pc) ∧ evs = [.file p])

/-- A likelihood whose items are refused, and the exception. -/
inductive Refused (E : Env) (d : PyDict String Val) : PyErr → Prop
  | unknownType {t : String} (h1 : d.get? "type" = some (.str t)) (h2 : E.apt t = none) : Refused E d .attributeError
  | ownName {a : Attr} (h1 : ClassOf E d a) (h2 : "name" ∈ d.keys) : Refused E d .typeError
  | notLikelihood (h1 : ClassOf E d .other) : Refused E d .typeError
  | binned (h1 : ClassOf E d .likelihood) (h2 : "name" ∉ d.keys) (h3 : "self" ∉ d.keys)
      (h4 : ∃ k ∈ ["data_file_name", "bins_type", "bins_on", "bins"], k ∉ d.keys) : Refused E d .keyError
  | lit (h1 : ClassOf E d .lit) (h2 : "name" ∉ d.keys) (h3 : "self" ∉ d.keys)
      (h4 : ∃ k ∈ ["bins_on", "logpdf_args", "variable_type"], k ∉ d.keys) : Refused E d .keyError

/-- A component that is refused, and the exception. -/
inductive CompRefused (E : Env) : Val → PyErr → Prop
  | name {s : String} (h : E.components s = false) : CompRefused E (.str s) .attributeError
  | noClass {d : List (String × Val)} (h : "component_cls" ∉ PyDict.keys d) : CompRefused E (.dict d) .keyError
  | unknown {d : List (String × Val)} {s : String} (h1 : PyDict.get? d "component_cls" = some (.str s)) (h2 : E.components s = false) :
      CompRefused E (.dict d) .attributeError
  | null : CompRefused E .null .typeError
  | list {l : List Val} : CompRefused E (.list l) .typeError

/-- A component written in full. -/
def expand : Val → Val
  | .str s => .dict [("component_cls", .str s), ("file_name", .null)]
  | v => v

/-- A likelihood with its components changed. -/
def mapComps (f : Val → Val) : Val → Val
  | .dict d => .dict (at' "components" (inside f) d)
  | v => v

/-- An instruction with all components written in full. -/
def expandAll (d : PyDict String Val) : PyDict String Val := at' "likelihoods" (inside (mapComps expand)) d

/-- What a likelihood of an instruction says about copied parameters. -/
def CopiesOf (e : String × Val) (i : Ctx.CopyInstr) : Prop :=
  ∃ (d : List (String × Val)) (cs : List (String × String)) (comps : List (String × Val)), e.2 = .dict d ∧
    PyDict.get? d "copy_parameters" = some (.dict (cs.map (fun c => (c.1, .str c.2)))) ∧ i.copy = some cs ∧
    PyDict.get? d "components" = some (.dict comps) ∧ i.comps = PyDict.keys comps

end Verif.Instr
