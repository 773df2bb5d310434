/-
Words of C44: invariants of python values, which instructions are plain, which contain constants, and equality of python values.
-/
import Verif.Model.Json

namespace Verif.Json
open Verif

/-- Digits as `float.__repr__` prints them: at least one before the point, at least one after it, at least one in the exponent,
and a fraction or an exponent. -/
structure Flt.Ok (f : Flt) : Prop where
  ip : f.ip ≠ [] ∧ ∀ d ∈ f.ip, d < 10
  frac : ∀ l, f.frac = some l → l ≠ [] ∧ ∀ d ∈ l, d < 10
  exp : ∀ s l, f.exp = some (s, l) → l ≠ [] ∧ ∀ d ∈ l, d < 10
  isFloat : f.frac ≠ none ∨ f.exp ≠ none

/-- Code points. -/
def StrOk (s : List Nat) : Prop := ∀ c ∈ s, c < 1114112

def Key.Ok : Key → Prop
  | .str s => StrOk s
  | .int _ => True

mutual
/-- Every python value has these: code points in range, floats with their representation, distinct keys. -/
def WF : J → Prop
  | .float f => f.Ok
  | .str s => StrOk s
  | .list l => WFList l
  | .tuple l => WFList l
  | .dict d => (d.map Prod.fst).Nodup ∧ WFItems d
  | _ => True
def WFList : List J → Prop
  | [] => True
  | j :: js => WF j ∧ WFList js
def WFItems : List (Key × J) → Prop
  | [] => True
  | (k, j) :: d => k.Ok ∧ WF j ∧ WFItems d
end

/-- Strings in the basic multilingual plane. -/
def Bmp (s : List Nat) : Prop := ∀ c ∈ s, c < 65536

def Key.Plain : Key → Prop
  | .str s => Bmp s
  | .int _ => False

mutual
/-- Instructions of dictionaries with string keys, lists, strings, integers and finite floats. -/
def Plain : J → Prop
  | .int _ => True
  | .float _ => True
  | .str s => Bmp s
  | .list l => PlainList l
  | .dict d => PlainItems d
  | _ => False
def PlainList : List J → Prop
  | [] => True
  | j :: js => Plain j ∧ PlainList js
def PlainItems : List (Key × J) → Prop
  | [] => True
  | (k, j) :: d => k.Plain ∧ Plain j ∧ PlainItems d
end

/-- The constant occurs somewhere in the value. -/
inductive Occurs (c : Const) : J → Prop
  | here : Occurs c (.const c)
  | list (l : List J) (j : J) : j ∈ l → Occurs c j → Occurs c (.list l)
  | tuple (l : List J) (j : J) : j ∈ l → Occurs c j → Occurs c (.tuple l)
  | dict (d : List (Key × J)) (k : Key) (j : J) : (k, j) ∈ d → Occurs c j → Occurs c (.dict d)

/-- Equality of python values: dictionaries are equal when they have the same items in any order. -/
inductive Same : J → J → Prop
  | int (n : Int) : Same (.int n) (.int n)
  | float (f : Flt) : Same (.float f) (.float f)
  | str (s : List Nat) : Same (.str s) (.str s)
  | const (c : Const) : Same (.const c) (.const c)
  | list (l l' : List J) : List.Forall₂ Same l l' → Same (.list l) (.list l')
  | tuple (l l' : List J) : List.Forall₂ Same l l' → Same (.tuple l) (.tuple l')
  | dict (d e d' : List (Key × J)) : d.map Prod.fst = e.map Prod.fst →
      List.Forall₂ Same (d.map Prod.snd) (e.map Prod.snd) → e.Perm d' → Same (.dict d) (.dict d')

/-- The value occurs somewhere in the other one (or is it). -/
inductive Within (x : J) : J → Prop
  | here : Within x x
  | list (l : List J) (j : J) : j ∈ l → Within x j → Within x (.list l)
  | tuple (l : List J) (j : J) : j ∈ l → Within x j → Within x (.tuple l)
  | dict (d : List (Key × J)) (k : Key) (j : J) : (k, j) ∈ d → Within x j → Within x (.dict d)

/-- What json refuses by itself: an object it does not know, and a dictionary with keys of two types (which cannot be sorted). -/
def Refused (x : J) : Prop :=
  x = .object ∨ ∃ d, x = .dict d ∧ (∃ s v, (Key.str s, v) ∈ d) ∧ ∃ n v, (Key.int n, v) ∈ d

/-- The same value except for the order of the items of its dictionaries, at any depth. -/
inductive Reordered : J → J → Prop
  | order {d d' : List (Key × J)} (hn : (d.map Prod.fst).Nodup) (h : d.Perm d') : Reordered (.dict d) (.dict d')
  | inList {j j' : J} (h : Reordered j j') (a b : List J) : Reordered (.list (a ++ j :: b)) (.list (a ++ j' :: b))
  | inTuple {j j' : J} (h : Reordered j j') (a b : List J) : Reordered (.tuple (a ++ j :: b)) (.tuple (a ++ j' :: b))
  | inDict {j j' : J} (h : Reordered j j') (k : Key) (a b : List (Key × J)) :
      Reordered (.dict (a ++ (k, j) :: b)) (.dict (a ++ (k, j') :: b))
  | trans {i j k : J} (h : Reordered i j) (h' : Reordered j k) : Reordered i k

end Verif.Json
