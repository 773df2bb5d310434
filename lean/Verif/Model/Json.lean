/-
Model of storing an instruction and reading it back: `json.dumps(self.instruct, sort_keys=True, indent=4)` in `_dump_meta`
(context.py 381, options in utils.py 31) and `eval` of the text in `from_backend` (context.py 62).

The writer is `json.dumps` of the standard library with its defaults (ASCII output, NaN allowed); the reader is `eval` on
displays of literals.  Simplifications.  Strings are lists of code points.  Integers are written and read in decimal here; a
float is given by its shortest representation (`float.__repr__`), and reading that text is taken to give the float back.
Dictionary keys are strings or integers.  Items are sorted at all levels before printing instead of level by level.  Of python's
grammar the reader knows lists, dictionaries, strings with the escapes below, decimal numbers, unary minus and names; anything
else is a SyntaxError.  The names of `context.py` at module level are not among those the writer prints.
-/
import Verif.Base.Py
import Mathlib.Data.Nat.Digits.Defs

namespace Verif.Json
open Verif

/-! ### Values -/

/-- `float.__repr__` of a finite float: sign, integer part, fraction and exponent (sign and digits). -/
structure Flt where
  neg : Bool
  ip : List Nat
  frac : Option (List Nat)
  exp : Option (Bool × List Nat)
  deriving DecidableEq

/-- A dictionary key. -/
inductive Key
  | str (s : List Nat)
  | int (n : Int)
  deriving DecidableEq

/-- Constants. -/
inductive Const
  | tru | fls | null | nan | inf | ninf
  deriving DecidableEq

/-- Python values in an instruction; `object` is an object json cannot write. -/
inductive J
  | int (n : Int)
  | float (f : Flt)
  | str (s : List Nat)
  | const (c : Const)
  | list (l : List J)
  | tuple (l : List J)
  | dict (d : List (Key × J))
  | object

/-! ### The writer -/

/-- Lower-case hexadecimal digit. -/
def hexDigit (n : Nat) : Char := ['0', '1', '2', '3', '4', '5', '6', '7', '8', '9', 'a', 'b', 'c', 'd', 'e', 'f'].getD n '0'

/-- `'\\u{0:04x}'.format(n)`. -/
def u4 (n : Nat) : List Char :=
  ['\\', 'u', hexDigit (n / 4096 % 16), hexDigit (n / 256 % 16), hexDigit (n / 16 % 16), hexDigit (n % 16)]

/-- One character of `encode_basestring_ascii`. -/
def escape (n : Nat) : List Char :=
  if n = 34 then ['\\', '"']
  else if n = 92 then ['\\', '\\']
  else if n = 10 then ['\\', 'n']
  else if n = 13 then ['\\', 'r']
  else if n = 9 then ['\\', 't']
  else if n = 12 then ['\\', 'f']
  else if n = 8 then ['\\', 'b']
  else if 32 ≤ n ∧ n ≤ 126 then [Char.ofNat n]
  else if n < 65536 then u4 n
  else u4 (55296 + (n - 65536) / 1024 % 1024) ++ u4 (56320 + (n - 65536) % 1024)

/-- A string literal. -/
def quote (s : List Nat) : List Char := '"' :: s.flatMap escape ++ ['"']

/-- Decimal digits, most significant first. -/
def decDigits (n : Nat) : List Nat := if n = 0 then [0] else (Nat.digits 10 n).reverse

/-- `int.__repr__`. -/
def intText (n : Int) : List Char := (if n < 0 then ['-'] else []) ++ (decDigits n.natAbs).map hexDigit

/-- `float.__repr__`. -/
def fltText (f : Flt) : List Char :=
  (if f.neg then ['-'] else []) ++ f.ip.map hexDigit ++
  (match f.frac with | none => [] | some l => '.' :: l.map hexDigit) ++
  (match f.exp with | none => [] | some (s, l) => 'e' :: (if s then '-' else '+') :: l.map hexDigit)

def constText : Const → List Char
  | .tru => ['t', 'r', 'u', 'e']
  | .fls => ['f', 'a', 'l', 's', 'e']
  | .null => ['n', 'u', 'l', 'l']
  | .nan => ['N', 'a', 'N']
  | .inf => ['I', 'n', 'f', 'i', 'n', 'i', 't', 'y']
  | .ninf => ['-', 'I', 'n', 'f', 'i', 'n', 'i', 't', 'y']

def keyText : Key → List Char
  | .str s => quote s
  | .int n => '"' :: intText n ++ ['"']

/-- A new line at the given level, `indent=4`. -/
def nl (lvl : Nat) : List Char := '\n' :: List.replicate (4 * lvl) ' '

mutual
/-- `json.dumps` of sorted values, at the given level. -/
def text (lvl : Nat) : J → List Char
  | .int n => intText n
  | .float f => fltText f
  | .str s => quote s
  | .const c => constText c
  | .list [] => ['[', ']']
  | .list (j :: js) => '[' :: nl (lvl + 1) ++ text (lvl + 1) j ++ textRest (lvl + 1) js ++ nl lvl ++ [']']
  | .tuple [] => ['[', ']']
  | .tuple (j :: js) => '[' :: nl (lvl + 1) ++ text (lvl + 1) j ++ textRest (lvl + 1) js ++ nl lvl ++ [']']
  | .dict [] => ['{', '}']
  | .dict ((k, j) :: d) =>
    '{' :: nl (lvl + 1) ++ keyText k ++ ':' :: ' ' :: text (lvl + 1) j ++ textItems (lvl + 1) d ++ nl lvl ++ ['}']
  | .object => []

/-- The remaining elements of a list. -/
def textRest (lvl : Nat) : List J → List Char
  | [] => []
  | j :: js => ',' :: nl lvl ++ text lvl j ++ textRest lvl js

/-- The remaining items of a dictionary. -/
def textItems (lvl : Nat) : List (Key × J) → List Char
  | [] => []
  | (k, j) :: d => ',' :: nl lvl ++ keyText k ++ ':' :: ' ' :: text lvl j ++ textItems lvl d
end

/-- Order of strings by code points. -/
def strLe : List Nat → List Nat → Bool
  | [], _ => true
  | _ :: _, [] => false
  | a :: s, b :: t => if a = b then strLe s t else decide (a < b)

/-- Order of keys (of one type). -/
def keyLe : Key → Key → Bool
  | .str s, .str t => strLe s t
  | .int m, .int n => decide (m ≤ n)
  | .str _, .int _ => true
  | .int _, .str _ => false

mutual
/-- `sort_keys=True` at all levels. -/
def sortKeys : J → J
  | .list l => .list (sortList l)
  | .tuple l => .tuple (sortList l)
  | .dict d => .dict ((sortItems d).mergeSort (fun a b => keyLe a.1 b.1))
  | j => j
def sortList : List J → List J
  | [] => []
  | j :: js => sortKeys j :: sortList js
def sortItems : List (Key × J) → List (Key × J)
  | [] => []
  | (k, j) :: d => (k, sortKeys j) :: sortItems d
end

def Key.isStr : Key → Bool
  | .str _ => true
  | .int _ => false

/-- Keys of different types cannot be sorted. -/
def sameType : List Key → Bool
  | .str _ :: ks => ks.all Key.isStr
  | .int _ :: ks => ks.all (fun k => !k.isStr)
  | [] => true

mutual
/-- Whether `json.dumps` can write the value. -/
def writable : J → Bool
  | .list l => writableList l
  | .tuple l => writableList l
  | .dict d => sameType (d.map Prod.fst) && writableItems d
  | .object => false
  | _ => true
def writableList : List J → Bool
  | [] => true
  | j :: js => writable j && writableList js
def writableItems : List (Key × J) → Bool
  | [] => true
  | (_, j) :: d => writable j && writableItems d
end

/-- `json.dumps(j, sort_keys=True, indent=4)`. -/
def dumps (j : J) : Res (List Char) := if writable j then .ok (text 0 (sortKeys j)) else .error .typeError

/-! ### The reader -/

/-- Expressions. -/
inductive E
  | int (n : Nat)
  | float (f : Flt)
  | str (s : List Nat)
  | name (n : List Char)
  | neg (e : E)
  | list (l : List E)
  | dict (d : List (E × E))

/-- Value of a hexadecimal digit. -/
def hexVal (c : Char) : Option Nat :=
  if '0' ≤ c ∧ c ≤ '9' then some (c.toNat - 48)
  else if 'a' ≤ c ∧ c ≤ 'f' then some (c.toNat - 87)
  else if 'A' ≤ c ∧ c ≤ 'F' then some (c.toNat - 55)
  else none

def isDigit (c : Char) : Bool := decide ('0' ≤ c) && decide (c ≤ '9')
def isLetter (c : Char) : Bool :=
  (decide ('a' ≤ c) && decide (c ≤ 'z')) || (decide ('A' ≤ c) && decide (c ≤ 'Z')) || c == '_'

/-- White space inside brackets. -/
def skipWs : List Char → List Char
  | ' ' :: r => skipWs r
  | '\n' :: r => skipWs r
  | '\t' :: r => skipWs r
  | r => r

/-- The rest of a string literal after its opening quote: python does not join surrogates. -/
def pStr : List Char → Res (List Nat × List Char)
  | [] => .error .syntaxError
  | '"' :: r => .ok ([], r)
  | '\n' :: _ => .error .syntaxError
  | '\\' :: '"' :: r => do let x ← pStr r; return (34 :: x.1, x.2)
  | '\\' :: '\\' :: r => do let x ← pStr r; return (92 :: x.1, x.2)
  | '\\' :: 'n' :: r => do let x ← pStr r; return (10 :: x.1, x.2)
  | '\\' :: 'r' :: r => do let x ← pStr r; return (13 :: x.1, x.2)
  | '\\' :: 't' :: r => do let x ← pStr r; return (9 :: x.1, x.2)
  | '\\' :: 'f' :: r => do let x ← pStr r; return (12 :: x.1, x.2)
  | '\\' :: 'b' :: r => do let x ← pStr r; return (8 :: x.1, x.2)
  | '\\' :: 'u' :: a :: b :: c :: d :: r =>
    match hexVal a, hexVal b, hexVal c, hexVal d with
    | some a, some b, some c, some d => do
      let x ← pStr r
      return ((4096 * a + 256 * b + 16 * c + d) :: x.1, x.2)
    | _, _, _, _ => .error .syntaxError
  | '\\' :: _ => .error .syntaxError
  | c :: r => do let x ← pStr r; return (c.toNat :: x.1, x.2)

/-- A run of decimal digits. -/
def pDigits : List Char → List Nat × List Char
  | [] => ([], [])
  | c :: r => if isDigit c then ((c.toNat - 48) :: (pDigits r).1, (pDigits r).2) else ([], c :: r)

/-- Value of decimal digits. -/
def decVal (l : List Nat) : Nat := l.foldl (fun a d => 10 * a + d) 0

/-- Fraction of a number. -/
def pFrac : List Char → Option (List Nat) × List Char
  | '.' :: r => (some (pDigits r).1, (pDigits r).2)
  | r => (none, r)

/-- Exponent of a number. -/
def pExp : List Char → Option (Bool × List Nat) × List Char
  | 'e' :: '-' :: r => (some (true, (pDigits r).1), (pDigits r).2)
  | 'e' :: '+' :: r => (some (false, (pDigits r).1), (pDigits r).2)
  | r => (none, r)

/-- An unsigned number; an integer with leading zeros is a SyntaxError. -/
def pNum (s : List Char) : Res (E × List Char) :=
  let d := pDigits s
  let f := pFrac d.2
  let e := pExp f.2
  match f.1, e.1 with
  | none, none =>
    if 1 < d.1.length ∧ d.1.head? = some 0 then .error .syntaxError else .ok (.int (decVal d.1), e.2)
  | _, _ => .ok (.float ⟨false, d.1, f.1, e.1⟩, e.2)

/-- A name. -/
def pName : List Char → List Char × List Char
  | [] => ([], [])
  | c :: r => if isLetter c || isDigit c then (c :: (pName r).1, (pName r).2) else ([], c :: r)

mutual
/-- An expression. -/
def pExpr : Nat → List Char → Res (E × List Char)
  | 0, _ => .error .recursionError
  | fuel + 1, s =>
    match skipWs s with
    | [] => .error .syntaxError
    | c :: r =>
      if c = '[' then do let x ← pList fuel r; return (.list x.1, x.2)
      else if c = '{' then do let x ← pDict fuel r; return (.dict x.1, x.2)
      else if c = '"' then do let x ← pStr r; return (.str x.1, x.2)
      else if c = '-' then do let x ← pExpr fuel r; return (.neg x.1, x.2)
      else if isDigit c then pNum (c :: r)
      else if isLetter c then .ok (.name (pName (c :: r)).1, (pName (c :: r)).2)
      else .error .syntaxError

/-- Elements up to the closing bracket. -/
def pList : Nat → List Char → Res (List E × List Char)
  | 0, _ => .error .recursionError
  | fuel + 1, s =>
    match skipWs s with
    | [] => .error .syntaxError
    | c :: r =>
      if c = ']' then .ok ([], r)
      else do
        let x ← pExpr fuel (c :: r)
        match skipWs x.2 with
        | [] => .error .syntaxError
        | c :: r =>
          if c = ',' then do let y ← pList fuel r; return (x.1 :: y.1, y.2)
          else if c = ']' then .ok ([x.1], r)
          else .error .syntaxError

/-- Items up to the closing brace. -/
def pDict : Nat → List Char → Res (List (E × E) × List Char)
  | 0, _ => .error .recursionError
  | fuel + 1, s =>
    match skipWs s with
    | [] => .error .syntaxError
    | c :: r =>
      if c = '}' then .ok ([], r)
      else do
        let k ← pExpr fuel (c :: r)
        match skipWs k.2 with
        | [] => .error .syntaxError
        | c :: r =>
          if c = ':' then do
            let x ← pExpr fuel r
            match skipWs x.2 with
            | [] => .error .syntaxError
            | c :: r =>
              if c = ',' then do let y ← pDict fuel r; return ((k.1, x.1) :: y.1, y.2)
              else if c = '}' then .ok ([(k.1, x.1)], r)
              else .error .syntaxError
          else .error .syntaxError
end

/-- The whole text is one expression. -/
def parse (s : List Char) : Res E := do
  let x ← pExpr (s.length + 1) s
  if skipWs x.2 = [] then return x.1 else .error .syntaxError

/-- Value of a name: the builtins, and nothing the writer prints. -/
def evName (n : List Char) : Res J :=
  if n = ['T', 'r', 'u', 'e'] then .ok (.const .tru)
  else if n = ['F', 'a', 'l', 's', 'e'] then .ok (.const .fls)
  else if n = ['N', 'o', 'n', 'e'] then .ok (.const .null)
  else .error .nameError

/-- Unary minus. -/
def evNeg : J → Res J
  | .int n => .ok (.int (-n))
  | .float f => .ok (.float { f with neg := !f.neg })
  | _ => .error .typeError

/-- A key must be hashable; of the hashable ones strings and integers are modelled. -/
def asKey : J → Res Key
  | .str s => .ok (.str s)
  | .int n => .ok (.int n)
  | _ => .error .typeError

mutual
/-- Evaluation. -/
def ev : E → Res J
  | .int n => .ok (.int n)
  | .float f => .ok (.float f)
  | .str s => .ok (.str s)
  | .name n => evName n
  | .neg e => do let j ← ev e; evNeg j
  | .list l => do let js ← evList l; return .list js
  | .dict d => do let items ← evItems d; return .dict (PyDict.ofList items)
def evList : List E → Res (List J)
  | [] => .ok []
  | e :: es => do let j ← ev e; let js ← evList es; return j :: js
def evItems : List (E × E) → Res (List (Key × J))
  | [] => .ok []
  | (k, e) :: d => do
    let k ← ev k
    let j ← ev e
    let k ← asKey k
    let items ← evItems d
    return (k, j) :: items
end

/-- `eval(text)`. -/
def eval (s : List Char) : Res J := do
  let e ← parse s
  ev e

/-- What `from_backend` gets for the instruction stored by `_dump_meta`. -/
def storeAndRead (j : J) : Res J := do
  let t ← dumps j
  eval t

end Verif.Json
