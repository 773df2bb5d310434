/-
Model of small utilities: `appletree/utils.py` 207-214 (checksum), 264-274 (GPU memory), 563-613 (extensions).
-/
import Verif.Base.Py
import Mathlib.Algebra.Order.Field.Rat
import Mathlib.Algebra.Order.Floor.Ring
import Mathlib.Data.Rat.Floor

namespace Verif.Utils
open Verif

/-! ### `set_gpu_memory_usage` -/

/-- The value of the variable `XLA_PYTHON_CLIENT_MEM_FRACTION` after `set_gpu_memory_usage(fraction)`
(utils.py 264-274).  Simplification: fractions are exact rationals, so `int(fraction * 100)` has no rounding before
the truncation.  `int` truncates; the argument is positive there, so it is the floor. -/
def gpuFraction (fraction : ℚ) : Res String :=
  let fraction := if 1 < fraction then 99 / 100 else fraction
  if fraction ≤ 0 then .error .valueError
  else .ok ("." ++ String.ofList (Nat.toDigits 10 ⌊fraction * 100⌋.toNat))

/-! ### `calculate_sha256` -/

/-- `iter(lambda: f.read(n), b"")` (utils.py 212): successive blocks of at most `n` bytes until one is empty.  The
first argument bounds the number of reads (the file is finite). -/
def readBlocks {B : Type} (n : Nat) : Nat → List B → List (List B)
  | 0, _ => []
  | fuel + 1, content =>
    if (content.take n).isEmpty then [] else content.take n :: readBlocks n fuel (content.drop n)

/-- `calculate_sha256` (utils.py 207-214).  The hash object is a state with `update`; `digest` is `hexdigest`. -/
def sha256 {B S D : Type} (init : S) (update : S → List B → S) (digest : S → D) (n : Nat) (content : List B) : D :=
  digest ((readBlocks n (content.length + 1) content).foldl update init)

/-! ### `add_extensions` -/

/-- What `_add_extension` reads of a class: its identity, `__name__`, the private `__is_base` flag and whether it is a
proper subclass of `base` (utils.py 597-613). -/
structure Cls where
  ident : Nat
  name : String
  isBase : Bool := false
  properSubclass : Bool := true
  deriving DecidableEq, Repr

/-- An attribute value of a module. -/
inductive Obj
  | cls (c : Cls)
  | mod (name : String)
  | other (ident : Nat)
  deriving DecidableEq, Repr

/-- A module: `__name__` and attributes, listed in the order of `dir()`. -/
structure Module where
  name : String
  attrs : PyDict String Obj
  deriving DecidableEq, Repr

/-- `_add_extension` (utils.py 590-613) on the attributes of `module`. -/
def addExtension (attrs : PyDict String Obj) (c : Cls) (force : Bool) : PyDict String Obj × Res Unit :=
  if c.isBase then (attrs, .ok ())
  else if c.properSubclass then
    if attrs.has c.name && !force then (attrs, .error .valueError)
    else (attrs.set c.name (.cls c), .ok ())
  else (attrs, .ok ())

/-- The loop over `dir(module2)` (utils.py 583-587). -/
def extLoop (force : Bool) : List Obj → PyDict String Obj → PyDict String Obj × Res Unit
  | [], attrs => (attrs, .ok ())
  | .cls c :: xs, attrs => match addExtension attrs c force with
    | (attrs, .ok ()) => extLoop force xs attrs
    | (attrs, .error e) => (attrs, .error e)
  | _ :: xs, attrs => extLoop force xs attrs

/-- `name.split(".")[-1]` (utils.py 580). -/
def lastPart (name : String) : String :=
  String.ofList (name.toList.reverse.takeWhile (fun c => c ≠ '.')).reverse

/-- `add_extensions` (utils.py 563-587): the attributes of `module1` afterwards, and the outcome. -/
def addExtensions (attrs1 : PyDict String Obj) (m2 : Module) (force : Bool) : PyDict String Obj × Res Unit :=
  if attrs1.has m2.name && !force then (attrs1, .error .valueError)
  else extLoop force (m2.attrs.map Prod.snd) (attrs1.set (lastPart m2.name) (.mod m2.name))

end Verif.Utils
