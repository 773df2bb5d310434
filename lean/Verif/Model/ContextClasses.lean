/-
Model of the classes of contexts: `Context` (appletree/context.py 26-71) and the two of `appletree/contexts/er_only.py`, as far as the
instruction they are made from goes.

Simplifications.  An instruction is of any type; what `json.load` makes of a file is an argument, and so are the backend files.  The
optional second argument `par_config` of `Context` is not given.
-/
import Verif.Model.Config
import Verif.Model.Fit

namespace Verif.Classes
open Verif Conf

/-- The classes of contexts (context.py 22, er_only.py 5 and 14). -/
inductive Cls
  | context
  | rn220
  | rn220Ar37
  deriving DecidableEq

/-- The file named in the constructor (er_only.py 10, 19); `Context` names none. -/
def Cls.file : Cls → Option String
  | .context => none
  | .rn220 => some "rn220.json"
  | .rn220Ar37 => some "rn220_ar37.json"

/-- An instruction as an argument: a file name or a dictionary (context.py 26-31). -/
inductive Given (I : Type)
  | name (s : String)
  | dict (i : I)

section
variable {I : Type}

/-- `if isinstance(instruct, str): instruct = load_json(instruct)` (context.py 33-34) with `load_json` (utils.py 120-124). -/
def instructOf (fs : FS) (json : String → Res I) (g : Given I) (c : Cache) : Cache × Res I :=
  match g with
  | .dict i => (c, .ok i)
  | .name s =>
    match getFilePath fs s c with
    | (c, .ok p) => (c, json p)
    | (c, .error e) => (c, .error e)

/-- `cls(*args)` (context.py 26-34; er_only.py 8-11 and 17-20): the instruction the context is made from. -/
def make (fs : FS) (json : String → Res I) (cls : Cls) (args : List (Given I)) (c : Cache) : Cache × Res I :=
  match cls.file, args with
  | none, [g] => instructOf fs json g c
  | none, _ => (c, .error .typeError)
  | some f, [] =>
    match getFilePath fs f c with
    | (c, .ok p) => instructOf fs json (.name p) c
    | (c, .error e) => (c, .error e)
  | some _, _ :: _ => (c, .error .typeError)

/-- `cls.from_backend(name)` (context.py 59-66) up to the context that is made. -/
def fromFile (fs : FS) (json : String → Res I) (h5 : String → Option (Fit.File I)) (cls : Cls) (name : String) (c : Cache) : Cache × Res I :=
  match getFilePath fs name c with
  | (c, .error e) => (c, .error e)
  | (c, .ok p) =>
    match Fit.fromBackend (h5 p) with
    | .error e => (c, .error e)
    | .ok (.instruct i, _, _) => make fs json cls [.dict i] c
    | .ok _ => (c, .error .typeError)

end
end Verif.Classes
