/-
Model of the functions that read and write whole files: `load_data` (`appletree/utils.py` 102-116), `add_spaces` and
`tree_to_svg` (440-465), `ComponentSim.save_code` (`appletree/component.py` 486-489), `Context.dump_post_parameters`
(`appletree/context.py` 352-356) and `Plotter.make_all_plots` (`appletree/plot.py` 65-96); and of `timeit` (utils.py 225-248).

Simplifications.  A file system is a dictionary from paths to contents; a path can be opened for writing or not.  Figures and
tables are their contents.  `json.dump` writes piece by piece, as the standard library does without `_one_shot`; parameters are
numbers, constants or objects that json cannot write (such as arrays of numpy or jax).  `graphviz` writes the source to the
given path and the picture to the path with the format of the graph appended.
-/
import Verif.Base.Py
import Verif.Model.Json
import Verif.Model.Declare

namespace Verif.Files
open Verif

/-- Contents by path. -/
abbrev FS := PyDict String (List Char)

/-- `with open(path, "w") as f:` and the pieces that are written to `f`; the first piece that cannot be computed ends the
writing, and the file is closed with what has been written. -/
def writeFile (canOpen : String → Bool) (fs : FS) (path : String) (pieces : List (Res (List Char))) : FS × Res Unit :=
  if canOpen path then go pieces [] else (fs, .error .fileNotFound)
where
  /-- what has been written so far -/
  go : List (Res (List Char)) → List Char → FS × Res Unit
    | [], done => (fs.set path done, .ok ())
    | .error e :: _, done => (fs.set path done, .error e)
    | .ok t :: l, done => go l (done ++ t)

/-! ### Reading tables -/

/-- `s.split(".")[-1]`: the text after the last dot, all of it if there is none. -/
def lastPart (s : List Char) : List Char := (s.reverse.takeWhile (· ≠ '.')).reverse

/-- The readers of pandas that `load_data` uses. -/
inductive Reader
  | csv | pickle
  deriving DecidableEq

/-- `load_data` (utils.py 102-116): the path is what `get_file_path` gives; the reader that is used and the path it is used on. -/
def loadData (find : String → Res String) (name : String) : Res (Reader × String) :=
  match find name with
  | .error e => .error e
  | .ok path =>
    if lastPart path.toList = ['c', 's', 'v'] then .ok (.csv, path)
    else if lastPart path.toList = ['p', 'k', 'l'] then .ok (.pickle, path)
    else .error .valueError

/-! ### Indented text -/

/-- The argument of `add_spaces`. -/
inductive Lines
  | str (s : List Char)
  | list (l : List (List Char))

/-- `s.split("\n")`. -/
def splitNl : List Char → List (List Char)
  | [] => [[]]
  | c :: s =>
    if c = '\n' then [] :: splitNl s
    else match splitNl s with
      | [] => [[c]]
      | l :: ls => (c :: l) :: ls

/-- `add_spaces` (utils.py 440-448). -/
def addSpaces : Lines → List Char
  | .str s => (splitNl s).flatMap (fun q => [' ', ' ', ' ', ' '] ++ q)
  | .list l => l.flatMap (fun q => [' ', ' ', ' ', ' '] ++ q)

/-- `f.readlines()`: lines keep their newline; the last one may have none. -/
def readLines : List Char → List (List Char)
  | [] => []
  | c :: s =>
    if c = '\n' then [c] :: readLines s
    else match readLines s with
      | [] => [[c]]
      | l :: ls => (c :: l) :: ls

/-- A graph: the format it renders to, its source and its picture. -/
structure Graph where
  format : String
  source : List Char
  picture : List Char

/-- `graph_tree.render(save_as)`. -/
def render (g : Graph) (fs : FS) (saveAs : String) : FS := (fs.set saveAs g.source).set (saveAs ++ "." ++ g.format) g.picture

/-- `tree_to_svg` (utils.py 452-465). -/
def treeToSvg (g : Graph) (fs : FS) (saveAs : String) : FS × Res (List Char) :=
  let fs := render g fs saveAs
  match fs.get? (saveAs ++ ".svg") with
  | none => (fs, .error .fileNotFound)
  | some svg => (fs.del saveAs, .ok (addSpaces (.list ((readLines svg).drop 5))))

/-! ### Saving results -/

/-- `save_code` (component.py 486-489): `code` is `none` before `deduce`. -/
def saveCode (canOpen : String → Bool) (fs : FS) (path : String) (code : Option (List Char)) : FS × Res Unit :=
  writeFile canOpen fs path [match code with
    | some t => .ok t
    | none => .error .attributeError]

/-- One value as `json.dump` writes it. -/
def scalarText : Json.J → Res (List Char)
  | .int n => .ok (Json.intText n)
  | .float f => .ok (Json.fltText f)
  | .const c => .ok (Json.constText c)
  | _ => .error .typeError

/-- The pieces `json.dump` writes for the items of a dictionary. -/
def itemPieces : Bool → List (List Nat × Json.J) → List (Res (List Char))
  | _, [] => [.ok ['}']]
  | first, (k, v) :: d => (if first then [] else [.ok [',', ' ']]) ++ [.ok (Json.quote k), .ok [':', ' '], scalarText v] ++
      itemPieces false d

/-- The pieces `json.dump` writes for a dictionary of parameters. -/
def dictPieces (d : List (List Nat × Json.J)) : List (Res (List Char)) :=
  match d with
  | [] => [.ok ['{', '}']]
  | d => .ok ['{'] :: itemPieces true d

/-- `dump_post_parameters` (context.py 352-356): `post` is what `get_post_parameters()` gives. -/
def dumpPost (canOpen : String → Bool) (fs : FS) (path : String) (post : Res (List (List Nat × Json.J))) : FS × Res Unit :=
  match post with
  | .error e => (fs, .error e)
  | .ok d => writeFile canOpen fs path (dictPieces d)

/-- The argument `fmt` of `make_all_plots`. -/
inductive Fmt
  | one (f : String)
  | many (l : List String)

/-- `if isinstance(fmt, str): fmt = [fmt]` (plot.py 73-74). -/
def Fmt.formats : Fmt → List String
  | .one f => [f]
  | .many l => l

/-- `for f in fmt: fig.savefig(...)` (plot.py 75-76); `canSave` tells which paths matplotlib can write. -/
def saveFig (canSave : String → Bool) (dir name : String) (fig : List Char) : List String → FS → FS × Res Unit
  | [], fs => (fs, .ok ())
  | f :: l, fs =>
    if canSave (dir ++ "/" ++ name ++ "." ++ f) then
      saveFig canSave dir name fig l (fs.set (dir ++ "/" ++ name ++ "." ++ f) fig)
    else (fs, .error .valueError)

/-- The names of the five plots, in order (plot.py 78-96). -/
def plotNames : List String := ["burn_in", "marginal_posterior", "corner", "autocorr", "acceptance_fraction"]

/-- The plots one after another (plot.py 78-96); `make` makes the plot of a name or raises. -/
def plotLoop (canSave : String → Bool) (make : String → Res (List Char)) (save : Bool) (dir : String) (fmt : Fmt) :
    List String → FS → FS × Res Unit
  | [], fs => (fs, .ok ())
  | n :: ns, fs =>
    match make n with
    | .error e => (fs, .error e)
    | .ok fig =>
      if save then
        match saveFig canSave dir n fig fmt.formats fs with
        | (fs, .error e) => (fs, .error e)
        | (fs, .ok ()) => plotLoop canSave make save dir fmt ns fs
      else plotLoop canSave make save dir fmt ns fs

/-- `make_all_plots` (plot.py 65-96). -/
def makeAllPlots (canSave : String → Bool) (make : String → Res (List Char)) (save : Bool) (dir : String) (fmt : Fmt) (fs : FS) :
    FS × Res Unit := plotLoop canSave make save dir fmt plotNames fs

/-! ### Timing -/

/-- A python function: its name, the names of its arguments, and what a call does to the state and the printed lines. -/
structure Fn (A S V : Type) where
  name : String
  args : List String
  call : A → S × List String → (S × List String) × Res V

/-- `_timeit(func, indent)` (utils.py 232-243): the wrapper is named `_func` and takes `*args, **kwargs`.  `cost` is the text
of the measured time. -/
def timed {A S V : Type} (indent cost : String) (f : Fn A S V) : Fn A S V where
  name := "_func"
  args := []
  call := fun a w =>
    match f.call a (w.1, w.2 ++ [indent ++ " Function <" ++ f.name ++ "> starts."]) with
    | (w, .error e) => (w, .error e)
    | (w, .ok v) => ((w.1, w.2 ++ [indent ++ " Function <" ++ f.name ++ "> ends! Time cost = " ++ cost ++ " msec."]), .ok v)

/-- The argument of `timeit`: a function, or a string, for which a decorator is returned (utils.py 245-248). -/
inductive TimeitArg (A S V : Type)
  | fn (f : Fn A S V)
  | str (indent : String)

/-- `timeit(x)` or `timeit(x)(f)`. -/
def timeit {A S V : Type} (cost : String) (x : TimeitArg A S V) (f : Fn A S V) : Fn A S V :=
  match x with
  | .fn g => timed "" cost g
  | .str indent => timed indent cost f

end Verif.Files
