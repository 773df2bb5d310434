/-
Model of `need_replacing_alias` (likelihood.py 25-43): binding the arguments of a call, replacing aliases, calling.
-/
import Verif.Model.Likelihood

namespace Verif.Wrap
open Verif

/-- An argument of a call: a dict of parameters, or anything without `in` such as a number, an array or None. -/
inductive Arg (V W : Type)
  | dict (d : PyDict String W)
  | other (v : V)

variable {A V W R : Type}

/-- `sig.bind(self, *args, **kwargs)` and `apply_defaults` (likelihood.py 30-31) for a method with plain parameters, here without
`self`: each parameter has a name and perhaps a default. -/
def bind : List (String × Option A) → List A → PyDict String A → PyDict String A → Res (PyDict String A)
  | [], [], kw, acc => if kw = [] then .ok acc else .error .typeError
  | [], _ :: _, _, _ => .error .typeError
  | (n, _) :: ps, a :: as, kw, acc => if kw.has n then .error .typeError else bind ps as kw (acc ++ [(n, a)])
  | (n, d) :: ps, [], kw, acc => match kw.get? n with
    | some v => bind ps [] (kw.del n) (acc ++ [(n, v)])
    | none => match d with
      | some v => bind ps [] kw (acc ++ [(n, v)])
      | none => .error .typeError

/-- `self.replace_alias(...)` (likelihood.py 281-291) of any argument: without aliases a copy, else `in` needs a dict. -/
def replaceArg (al : PyDict String String) : Arg V W → Res (Arg V W)
  | .dict d => .ok (.dict (Llh.replaceAlias al d))
  | .other v => if al = [] then .ok (.other v) else .error .typeError

/-- `wrapper` (likelihood.py 28-41); `func` sees the bound arguments. -/
def call (sig : List (String × Option (Arg V W))) (al : PyDict String String) (func : PyDict String (Arg V W) → Res R)
    (args : List (Arg V W)) (kw : PyDict String (Arg V W)) : Res R := do
  let b ← bind sig args kw []
  match b.get? "parameters" with
  | none => .error .valueError
  | some p =>
    let p ← replaceArg al p
    func (b.set "parameters" p)

/-- The parameters of the decorated methods (likelihood.py 299, 320, 342, 516, 540), without `self`. -/
def sig3 : List (String × Option A) := [("key", none), ("batch_size", none), ("parameters", none)]

/-- The parameters of `get_num_events_accepted` (likelihood.py 378). -/
def sig2 : List (String × Option A) := [("batch_size", none), ("parameters", none)]

end Verif.Wrap
