/-
Model of `Component.multiple_simulations_compile` (`appletree/component.py` 111-133).

Simplifications: of the global configuration only the entry "g4" is kept, since nothing else is written; `compile` is an argument that
gives the simulator compiled under a value of "g4", or raises; `key.sum().item()` is an argument.
-/
import Verif.Model.CompHist

namespace Verif.Recompile
open Verif Comp

/-- An element of the list that describes the file of events: its name, a number of events or a seed. -/
inductive Cell
  | str (s : String)
  | int (n : Int)
  deriving DecidableEq

/-- A value that is not a dictionary. -/
inductive Entry
  | list (l : List Cell)
  | text (s : String)
  | other
  deriving DecidableEq

/-- The entry "g4" of the global configuration; `falsy` is None, False or 0. -/
inductive G4
  | missing
  | falsy
  | plain (e : Entry)
  | dict (d : PyDict String Entry)
  deriving DecidableEq

/-- `if _cached_configs["g4"]`. -/
def G4.truth : G4 → Res Bool
  | .missing => .error .keyError
  | .falsy => .ok false
  | .plain (.list l) => .ok (decide (l ≠ []))
  | .plain (.text s) => .ok (decide (s ≠ ""))
  | .plain .other => .ok true
  | .dict d => .ok (decide (d ≠ []))

/-- `entry[0]`; of a text it is the first character. -/
def Entry.first : Entry → Res Cell
  | .list (c :: _) => .ok c
  | .list [] => .error .indexError
  | .text s =>
    match s.toList with
    | c :: _ => .ok (.str (String.singleton c))
    | [] => .error .indexError
  | .other => .error .typeError

/-- The start of a round (component.py 116-126): the new value of "g4". -/
def newG4 (useMc : Res Bool) (llh : String) (batch seed : Int) (g : G4) : Res G4 := do
  let t ← g.truth
  if !t then return g
  else
    let mc ← useMc
    if !mc then return g
    else
      match g with
      | .dict d =>
        let e ← d.getItem llh
        let file ← e.first
        return .dict (d.set llh (.list [file, .int batch, .int seed]))
      | .plain e =>
        let file ← e.first
        return .plain (.list [file, .int batch, .int seed])
      | g => return g

section
variable {F K : Type} [Field F] [LinearOrder F]

/-- The loop (component.py 115-129): the value of "g4" afterwards, the key and the pile. -/
def rounds (useMc : Res Bool) (llh : String) (batch : Int) (keySum : K → Int) (compiled : G4 → Res (K → K × List (List F)))
    (force apply : Bool) : Nat → K → G4 → List (List (List F)) → G4 × Res (K × List (List (List F)))
  | 0, key, g, pile => (g, .ok (key, pile))
  | n + 1, key, g, pile =>
    match newG4 useMc llh batch (keySum key) g with
    | .error e => (g, .error e)
    | .ok g =>
      match compiled g with
      | .error e => (g, .error e)
      | .ok sim =>
        match multipleSimulations sim force apply 1 key with
        | .error e => (g, .error e)
        | .ok r => rounds useMc llh batch keySum compiled force apply n r.1 g (pile ++ [r.2])

/-- `multiple_simulations_compile` (component.py 111-133).  Without a round the name `results` is unbound. -/
def multipleCompile (useMc : Res Bool) (llh : String) (batch : Int) (keySum : K → Int) (compiled : G4 → Res (K → K × List (List F)))
    (force apply : Bool) (times : Int) (key : K) (g : G4) : G4 × Res (K × List (List F)) :=
  match rounds useMc llh batch keySum compiled force apply times.toNat key g [] with
  | (g, .error e) => (g, .error e)
  | (g, .ok (key, pile)) =>
    (g,
      match pile.getLast? with
      | none => .error .unboundLocal
      | some results => do
        let cols ← (List.range results.length).mapM (hstackColumn pile)
        return (key, cols))

end
end Verif.Recompile
