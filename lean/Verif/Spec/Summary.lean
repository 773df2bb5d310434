/-
Specification vocabulary for the printed summaries: reading what was printed.
-/
import Verif.Model.Summary

namespace Verif.Summary
open Verif

/-- The numbers and names of the components printed. -/
def components (out : List Line) : List (Nat × String) := out.filterMap fun | .component i n => some (i, n) | _ => none

/-- The likelihoods printed. -/
def likelihoods (out : List Line) : List String := out.filterMap fun | .likelihood n => some n | _ => none

/-- The sets of parameters printed. -/
def parameters (out : List Line) : List (List String) := out.filterMap fun | .pars ns => some ns | _ => none

/-- The values printed after a label in the list of components. -/
def entries (label : String) (out : List Line) : List String :=
  out.filterMap fun | .entry 2 l v => if l = label then some v else none | _ => none

/-- The values printed after a label in the first part of the summary of a likelihood. -/
def headEntries (label : String) (out : List Line) : List String :=
  out.filterMap fun | .entry 1 l v => if l = label then some v else none | _ => none

/-- The arguments printed before the list of components. -/
def arguments (out : List Line) : List (String × String) :=
  (out.takeWhile (fun l => l ≠ .title "MODEL")).filterMap fun | .entry 2 l v => some (l, v) | _ => none

/-- The word for the class of a component. -/
def kindWord : Kind → Option String
  | .sim _ => some "simulation"
  | .fixed _ => some "fixed"
  | .other => none

/-- The file a component reads. -/
def fileName : Kind → Option String
  | .fixed f => some f
  | _ => none

/-- The rows of a printed worksheet. -/
def rows (out : List Line) : List (Nat × String × List String × List String) :=
  out.filterMap fun | .row i p pr ds => some (i, p, pr, ds) | _ => none

/-- The words of a text, separated by spaces; `w` is the beginning of the first one. -/
def wordsFrom : List Char → List Char → List (List Char)
  | w, [] => if w = [] then [] else [w]
  | w, c :: s => if c = ' ' then (if w = [] then wordsFrom [] s else w :: wordsFrom [] s) else wordsFrom (w ++ [c]) s

/-- The words of a text, separated by spaces. -/
def words (s : String) : List (List Char) := wordsFrom [] s.toList

/-- A list of names as words: each but the last is followed by a comma. -/
def listed : List String → List (List Char)
  | [] => []
  | [a] => [a.toList]
  | a :: b :: r => (a.toList ++ [',']) :: listed (b :: r)

/-- A name: not empty, without spaces. -/
def IsName (s : String) : Prop := s.toList ≠ [] ∧ ' ' ∉ s.toList

end Verif.Summary
