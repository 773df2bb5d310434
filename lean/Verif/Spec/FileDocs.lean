/-
What the manual says about finding files (docs/source/advance/file.rst, and the docstring of `get_file_path`, utils.py 148-158).
-/
import Verif.Model.Config

namespace Verif.Conf
open Verif

/-- The places in the order of the docstring: a name that begins with "/", the url base if that begins with "/", the folders of the
package, ntauxfiles, the database.  The folders are those that file.rst lists. -/
def documented (fs : FS) (urlBase : Option String) (s : String) : List String :=
  (if isAbs s ∧ fs.isFile s then [s] else []) ++
  ((match urlBase with
    | some u => if isAbs u then [pyJoin u s] else []
    | none => []) ++ ["maps", "data", "parameters", "configs"].map (fun d => pyJoin (pyJoin fs.pkg d) s)).filter
      (fun p => fs.pathExists p) ++
  ((fs.aux.bind (fun f => f s)).toList ++ (fs.mongo s).toList)

/-- What a search through places gives: the first one, or RuntimeError. -/
def firstOf : List String → Res String
  | [] => .error .runtimeError
  | p :: _ => .ok p

end Verif.Conf
