/-
Model of the messages of the errors a user meets while putting a model together: a plugin that is registered with another
default (`appletree/component.py` 221-246), a missing dependency (267-309), unknown parameters (`appletree/parameter.py`
165-240), parameters that are not needed (`appletree/context.py` 418-428) and arguments of `simulate` in the wrong order
(`appletree/plugin.py` 75-92).

The functions are those of the models `Registry`, `Parameter`, `Context` and `Declare`, with the message kept beside the class
of the exception.  A message is its parts; `Msg.render` is its text, where names are quoted as python quotes names that contain
no quotes themselves.  Errors whose message is not made by the package are `plain`.
-/
import Verif.Model.Registry
import Verif.Model.Parameter
import Verif.Model.Context
import Verif.Model.Declare

namespace Verif.Messages
open Verif Verif.Comp

/-- The messages, with the values that are filled in, in their order in the text. -/
inductive Msg
  /-- component.py 237-245: the config, the first plugin, the file name said to be its, the second plugin, the file name said
  to be its -/
  | conflict (config first : String) (firstFile : Option String) (second : String) (secondFile : Option String)
  /-- component.py 297 -/
  | noDependency (data : String)
  /-- parameter.py 217 and 238, with a list -/
  | notFound (names : List String)
  /-- parameter.py 217 and 238, with a name -/
  | notFoundOne (name : String)
  /-- context.py 424-427 -/
  | notNeeded (names : List String)
  /-- plugin.py 80-81 -/
  | firstArgument (cls : String)
  /-- plugin.py 84-85 -/
  | secondArgument (cls : String)
  /-- plugin.py 89-91 -/
  | otherArgument (i : Nat) (cls depend : String)
  /-- a message that is not made by filling in values -/
  | plain (e : PyErr)
  deriving DecidableEq, Repr

/-- The class of the exception. -/
def Msg.err : Msg → PyErr
  | .conflict .. => .valueError
  | .noDependency _ => .valueError
  | .notFound _ => .assertionError
  | .notFoundOne _ => .assertionError
  | .notNeeded _ => .runtimeError
  | .firstArgument _ => .valueError
  | .secondArgument _ => .valueError
  | .otherArgument .. => .valueError
  | .plain e => e

/-- `str` of a list of names. -/
def pyList (l : List String) : String := "[" ++ ", ".intercalate (l.map (fun s => "'" ++ s ++ "'")) ++ "]"

/-- A default in a message: `OMITTED` is the text `<OMITTED>` (config.py 26). -/
def pyDefault (d : Option String) : String := d.getD "<OMITTED>"

/-- The text of the message. -/
def Msg.render : Msg → String
  | .conflict c p f q g =>
    "Two plugins have a different file name for the same config. The config '" ++ c ++ "' in '" ++ p ++
    "' takes the file name as '" ++ pyDefault f ++ "'  while in '" ++ q ++ "' the file name is set to '" ++ pyDefault g ++
    "'. Please change one of the file names."
  | .noDependency d => "Can not find dependency for " ++ d
  | .notFound l => pyList l ++ " not found!"
  | .notFoundOne n => n ++ " not found!"
  | .notNeeded l => "Parameter manager should provide needed parameters only, " ++ pyList l ++ " not needed."
  | .firstArgument c => "First argument of " ++ c ++ ".simulate should be 'key'."
  | .secondArgument c => "Second argument of " ++ c ++ ".simulate should be 'parameters'."
  | .otherArgument i c d => toString i ++ "th argument of " ++ c ++ ".simulate should be '" ++ d ++ "'. Plugin " ++ c ++
    " is insane, check dependency!"
  | .plain _ => ""

/-! ### Registering a plugin -/

/-- The two inner loops (component.py 228-246): the first pair of configurations of one name with different defaults. -/
def clash (old new : Plugin) : Option Msg :=
  old.configs.findSome? fun c =>
    new.configs.findSome? fun c' =>
      if c'.name ≠ c.name then none
      else if c.default = c'.default then none
      else some (.conflict c'.name old.name c'.default new.name c.default)

/-- `register` (component.py 207-246): the registry is written before the check. -/
def registerMsg (reg : Registry) (p : Plugin) : Registry × Except Msg Unit :=
  let reg' := addProvides reg p
  match (reg'.map Prod.snd).findSome? (fun q => clash q p) with
  | some m => (reg', .error m)
  | none => (reg', .ok ())

/-! ### Missing dependencies -/

/-- First loop of `dependencies_deduce` (component.py 285-297). -/
def appendMsg (reg : Registry) (nodep : String) : List String → List Entry → Except Msg (List Entry)
  | [], acc => .ok acc
  | n :: ns, acc =>
    if n = nodep then appendMsg reg nodep ns acc
    else match reg.get? n with
      | none => .error (.noDependency n)
      | some p => appendMsg reg nodep ns (acc ++ [⟨p, n⟩])

mutual
/-- `dependencies_deduce` (component.py 267-309). -/
def deduceMsg (reg : Registry) (nodep : String) : Nat → List String → List Entry → Except Msg (List Entry)
  | 0, _, _ => .error (.plain .recursionError)
  | fuel + 1, names, acc =>
    match appendMsg reg nodep names acc with
    | .error m => .error m
    | .ok acc => deduceLoopMsg reg nodep fuel names acc
/-- The second loop of `dependencies_deduce` (component.py 299-307). -/
def deduceLoopMsg (reg : Registry) (nodep : String) (fuel : Nat) : List String → List Entry → Except Msg (List Entry)
  | [], acc => .ok acc
  | n :: ns, acc =>
    if n = nodep then deduceLoopMsg reg nodep fuel ns acc
    else match reg.get? n with
      | none => .error (.plain .keyError)
      | some p =>
        match deduceMsg reg nodep fuel p.dependsOn acc with
        | .error m => .error m
        | .ok acc => deduceLoopMsg reg nodep fuel ns acc
end

/-! ### Parameters -/

/-- What `check_parameter_exist(keys, return_not_exist=True)` returns besides the flag: a list, or the name it was given. -/
inductive Missing
  | names (l : List String)
  | name (n : String)
  deriving DecidableEq

/-- `check_parameter_exist(keys, return_not_exist=True)` (parameter.py 165-202). -/
def checkMissing (pm : Parameter.PM) : Parameter.Keys → Except Msg (Bool × Missing)
  | .list ks => let l := ks.filter (fun k => !pm.vals.has k)
                .ok (l == [], .names l)
  | .set ks => let l := ks.filter (fun k => !pm.vals.has k)
               .ok (l == [], .names l)
  | .str k => .ok (pm.vals.has k, .name k)
  | .dict d => let l := d.keys.filter (fun k => !pm.vals.has k)
               .ok (l == [], .names l)
  | .other => .error (.plain .valueError)

/-- `assert all_exist, f"{not_exist} not found!"` (parameter.py 216-217 and 237-238). -/
def assertExist (pm : Parameter.PM) (keys : Parameter.Keys) : Except Msg Unit :=
  match checkMissing pm keys with
  | .error m => .error m
  | .ok (true, _) => .ok ()
  | .ok (false, .names l) => .error (.notFound l)
  | .ok (false, .name n) => .error (.notFoundOne n)

/-- `Context._sanity_check` (context.py 418-428) with the names the parameter manager has and the names that are needed. -/
def sanityMsg (provided needed : List String) : Except Msg Unit :=
  let extra := provided.dedup.filter (fun p => p ∉ needed)
  if extra = [] then .ok () else .error (.notNeeded (extra.mergeSort (fun a b => decide (a ≤ b))))

/-! ### Arguments of `simulate` -/

/-- `for i, depend in enumerate(self.depends_on, start=3)` (plugin.py 87-92). -/
def checkInputsMsg (c : Declare.Cls) : Nat → List String → Except Msg Unit
  | _, [] => .ok ()
  | i, d :: l =>
    match Declare.argument c i with
    | .error e => .error (.plain e)
    | .ok a => if a ≠ d then .error (.otherArgument i c.name d) else checkInputsMsg c (i + 1) l

/-- `sanity_check` (plugin.py 75-92). -/
def pluginCheckMsg (c : Declare.Cls) : Except Msg Unit :=
  match Declare.argument c 1 with
  | .error e => .error (.plain e)
  | .ok a =>
    if a ≠ "key" then .error (.firstArgument c.name)
    else
      match Declare.argument c 2 with
      | .error e => .error (.plain e)
      | .ok b => if b ≠ "parameters" then .error (.secondArgument c.name) else checkInputsMsg c 3 c.dependsOn

end Verif.Messages
