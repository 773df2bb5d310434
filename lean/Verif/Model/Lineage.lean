/-
Model of lineages and their hashes: `appletree/config.py` 146-152, 166-170, 379-389, 557-564, 596-600, `appletree/plugin.py`
94-110, `appletree/component.py` 186-192, 571-592, 637-650, `appletree/likelihood.py` 438-458, 589-599, `appletree/context.py`
464-481 and `appletree/utils.py` 205-221 (`calculate_sha256`, `dump_lineage`).

Simplifications: numbers are rational; the contents of files are an abstract type `C` and the checksum is any function on them;
`strax.deterministic_hash` (outside the repository) is any function of the value it first brings into a canonical form, which
is modelled (`canon`); the text of `json.dumps(..., sort_keys=True)` is any function of the value with sorted keys.
`utils.FULL_PATH_LINEAGE` is False, its value in the repository; `os.path.basename` is an argument.
-/
import Verif.Base.Py
import Mathlib.Data.Rat.Defs
import Mathlib.Data.List.Sort
import Mathlib.Data.String.Basic

namespace Verif.Lineage
open Verif

/-- A python value occurring in a lineage; `seq` is a list or a tuple, `array` a numpy array. -/
inductive Val
  | null
  | num (q : ℚ)
  | str (s : String)
  | seq (l : List Val)
  | array (l : List ℚ)
  | dict (d : List (String × Val))

/-- Entries of a dictionary in the order of their keys. -/
def byKey {α : Type} (d : List (String × α)) : List (String × α) := d.insertionSort (fun a b => a.1 ≤ b.1)

mutual
/-- `strax.utils.hashablize`: dictionaries become sequences of pairs in the order of the keys, arrays sequences. -/
def canon : Val → Val
  | .null => .null
  | .num q => .num q
  | .str s => .str s
  | .seq l => .seq (canonList l)
  | .array l => .seq (l.map .num)
  | .dict d => .seq ((byKey (canonItems d)).map (fun e => .seq [.str e.1, e.2]))
def canonList : List Val → List Val
  | [] => []
  | v :: l => canon v :: canonList l
def canonItems : List (String × Val) → List (String × Val)
  | [] => []
  | (k, v) :: l => (k, canon v) :: canonItems l
end

mutual
/-- Whether `json.dumps` can write the value: numpy arrays raise TypeError. -/
def writable : Val → Bool
  | .null => true
  | .num _ => true
  | .str _ => true
  | .seq l => writableList l
  | .array _ => false
  | .dict d => writableItems d
def writableList : List Val → Bool
  | [] => true
  | v :: l => writable v && writableList l
def writableItems : List (String × Val) → Bool
  | [] => true
  | (_, v) :: l => writable v && writableItems l
end

mutual
/-- The value with sorted dictionaries, as `json.dumps(..., sort_keys=True)` writes it. -/
def sorted : Val → Val
  | .null => .null
  | .num q => .num q
  | .str s => .str s
  | .seq l => .seq (sortedList l)
  | .array l => .array l
  | .dict d => .dict (byKey (sortedItems d))
def sortedList : List Val → List Val
  | [] => []
  | v :: l => sorted v :: sortedList l
def sortedItems : List (String × Val) → List (String × Val)
  | [] => []
  | (k, v) :: l => (k, sorted v) :: sortedItems l
end

/-- `deterministic_hash(lineage)`. -/
def hash {D : Type} (digest : Val → D) (v : Val) : D := digest (canon v)

/-- `dump_lineage` (utils.py 217-221): the file is opened for writing, then the lineage is computed and serialised.  Gives the
content of the file afterwards and the outcome. -/
def dumpLineage (json : Val → String) (lineage : Res Val) : String × Res Unit :=
  match lineage with
  | .error e => ("", .error e)
  | .ok v => if writable v then (json (sorted v), .ok ()) else ("", .error .typeError)

section
variable {C : Type}

/-- The environment of a lineage: the files as they are when it is computed, their checksum and base names. -/
structure Env (C : Type) where
  read : String → Option C
  sha : C → String
  base : String → String

/-- `calculate_sha256(get_file_path(path))` (utils.py 205-213). -/
def Env.checksum (e : Env C) (path : String) : Res String :=
  match e.read path with
  | some c => .ok (e.sha c)
  | none => .error .fileNotFound

/-- A map that has been built: its file name and the content it read (config.py 203-231). -/
structure BuiltMap (C : Type) where
  method : String
  path : String
  content : C

/-- A configuration that has been built. -/
inductive Conf (C : Type)
  | constant (value : Val)
  | set (value : List (String × List ℚ))
  | map (m : BuiltMap C)
  | sigma (llh : String) (method : String) (median lower upper : BuiltMap C) (scaler : Option String)

/-- `Map.lineage` (config.py 379-389): the file is read again.  `llh_name` is never set on a Map. -/
def mapLineage (e : Env C) (m : BuiltMap C) : Res Val := do
  let s ← e.checksum m.path
  return .dict [("llh_name", .null), ("method", .str m.method), ("file_path", .str (e.base m.path)), ("sha256", .str s)]

/-- `lineage` of a configuration (config.py 166-170, 379-389, 557-564, 596-600).  `llh_name` is set by SigmaMap only. -/
def confLineage (e : Env C) : Conf C → Res Val
  | .constant v => .ok (.dict [("llh_name", .null), ("value", v)])
  | .set v => .ok (.dict [("llh_name", .null), ("value", .dict (v.map (fun p => (p.1, .array p.2))))])
  | .map m => mapLineage e m
  | .sigma llh method median lower upper _ => do
    let m ← mapLineage e median
    let l ← mapLineage e lower
    let u ← mapLineage e upper
    return .dict [("llh_name", .str llh), ("method", .str method), ("median", m), ("lower", l), ("upper", u)]

/-- The configurations of a plugin class after the last construction of an instance. -/
def confsLineage (e : Env C) : List (String × Conf C) → Res (List (String × Val))
  | [] => .ok []
  | (k, c) :: r => do
    let v ← confLineage e c
    let vs ← confsLineage e r
    return (k, v) :: vs

/-- What the lineage of a plugin instance reads: its class, the declarations of the class and the configurations of the class.
The instance runs with copies of those, which are the same as long as the class was not built again since (plugin.py 46-55, C27). -/
structure Inst (C : Type) where
  cls : String
  dependsOn : List String
  provides : List String
  parameters : List String
  configs : List (String × Conf C)

/-- A list or tuple of names. -/
def names (l : List String) : Val := .seq (l.map .str)

/-- `Plugin.lineage` (plugin.py 94-106). -/
def instLineage (e : Env C) (p : Inst C) : Res Val := do
  let cs ← confsLineage e p.configs
  return .dict [("depends_on", names p.dependsOn), ("provides", names p.provides), ("parameters", names p.parameters),
    ("takes_config", .dict cs)]

/-- Bin edges of one axis: a numpy array, or a list, which has no `tolist`. -/
inductive Edges
  | array (l : List ℚ)
  | list (l : List ℚ)

/-- `tuple(b.tolist() for b in self.bins)`. -/
def edgesLists : List Edges → Res (List Val)
  | [] => .ok []
  | .array l :: r => do
    let vs ← edgesLists r
    return .seq (l.map .num) :: vs
  | .list _ :: _ => .error .attributeError

/-- `tuple(b.tolist() for b in self.bins) if self.bins is not None else self.bins`. -/
def binsVal : Option (List Edges) → Res Val
  | none => .ok .null
  | some b => do
    let vs ← edgesLists b
    return .seq vs

/-- `bins_type`, a string or None. -/
def typeVal : Option String → Val
  | none => .null
  | some t => .str t

/-- A simulated component.  `bins` is missing if no binning was set; `code` and `instances` are missing before `deduce`;
`addEps` is the class attribute `add_eps_to_hist`.  `instances` lists the python set in the order in which it is walked. -/
structure Sim where
  rateName : String
  normType : String
  addEps : Bool
  bins : Option (Option (List Edges) × Option String)
  code : Option String
  instances : List String

/-- `[_cached_functions[self.llh_name][p].lineage for p in self.instances]`, zipped with the names. -/
def instancesLineage (e : Env C) (cached : PyDict String (Inst C)) : List String → Res (List (String × Val))
  | [] => .ok []
  | n :: r => do
    let p ← cached.getItem n
    let v ← instLineage e p
    let vs ← instancesLineage e cached r
    return (n, v) :: vs

/-- The entries on the binning (component.py 573-580). -/
def binsDict : Option (Option (List Edges) × Option String) → Res (List (String × Val))
  | none => .ok []
  | some (bs, t) => do
    let v ← binsVal bs
    return [("bins", v), ("bins_type", typeVal t)]

/-- `ComponentSim.lineage` (component.py 571-592). `cached` is `_cached_functions[self.llh_name]`. -/
def simLineage (e : Env C) (cached : PyDict String (Inst C)) (c : Sim) : Res Val := do
  let b ← binsDict c.bins
  match c.code with
  | none => .error .attributeError
  | some code => do
    let is ← instancesLineage e cached c.instances
    return .dict ([("rate_name", .str c.rateName), ("norm_type", .str c.normType), ("code", .str code),
      ("instances", .dict is)] ++ b)

/-- A fixed component. -/
structure Fixed where
  rateName : String
  normType : String
  bins : Option (Option (List Edges) × Option String)
  file : String

/-- `ComponentFixed.lineage` (component.py 637-650). -/
def fixedLineage (e : Env C) (c : Fixed) : Res Val :=
  match c.bins with
  | none => .error .attributeError
  | some (bs, t) => do
    let v ← binsVal bs
    let s ← e.checksum c.file
    return .dict [("rate_name", .str c.rateName), ("norm_type", .str c.normType), ("bins", v), ("bins_type", typeVal t),
      ("file_path", .str (e.base c.file)), ("sha256", .str s)]

/-- A component of a likelihood. -/
inductive Comp
  | sim (c : Sim)
  | fixed (c : Fixed)

/-- The lineage of a component of either class. -/
def compLineage (e : Env C) (cached : PyDict String (Inst C)) : Comp → Res Val
  | .sim c => simLineage e cached c
  | .fixed c => fixedLineage e c

/-- `dict(zip(self.components.keys(), [v.lineage for v in self.components.values()]))` (likelihood.py 447-452). -/
def compsLineage (e : Env C) (cached : PyDict String (Inst C)) : List (String × Comp) → Res (List (String × Val))
  | [] => .ok []
  | (k, c) :: r => do
    let v ← compLineage e cached c
    let vs ← compsLineage e cached r
    return (k, v) :: vs

/-- A likelihood: its configuration (with the data file, unless it is a literature constraint) and its components. -/
structure Llh where
  config : Val
  file : Option String
  components : List (String × Comp)

/-- `Likelihood.lineage` (likelihood.py 438-454) and `LikelihoodLit.lineage` (likelihood.py 589-599), where components enter by
their hash. -/
def llhLineage (e : Env C) (digest : Val → String) (cached : PyDict String (Inst C)) (l : Llh) : Res Val :=
  match l.file with
  | some f => do
    let s ← e.checksum f
    let cs ← compsLineage e cached l.components
    return .dict [("config", l.config), ("file_path", .str (e.base f)), ("sha256", .str s), ("components", .dict cs)]
  | none => do
    let cs ← compsLineage e cached l.components
    return .dict [("config", l.config), ("components", .dict (cs.map (fun p => (p.1, .str (hash digest p.2)))))]

/-- The likelihoods of a context.  `_cached_functions` has an entry for a likelihood once a simulated component was deduced;
only simulated components look into it. -/
def llhsLineage (e : Env C) (digest : Val → String) (cached : PyDict String (PyDict String (Inst C))) :
    List (String × Llh) → Res (List (String × Val))
  | [] => .ok []
  | (k, l) :: r => do
    let v ← llhLineage e digest ((cached.get? k).getD []) l
    let vs ← llhsLineage e digest cached r
    return (k, v) :: vs

/-- `Context.lineage` (context.py 464-477): the entries of the instruction, with `par_config` and `likelihoods` replaced. -/
def contextLineage (e : Env C) (digest : Val → String) (cached : PyDict String (PyDict String (Inst C)))
    (instruct : PyDict String Val) (parConfig : Val) (llhs : List (String × Llh)) : Res Val := do
  let ls ← llhsLineage e digest cached llhs
  return .dict (PyDict.update instruct [("par_config", parConfig), ("likelihoods", .dict ls)])

end
end Verif.Lineage
