/-
Specification vocabulary for saving map plots.
-/
import Verif.Model.Plot

namespace Verif.Plot
open Verif

/-- What a user expects on disk: for every figure and every format one file, in order. -/
def expectedFiles (stem : String → String) (fmt : List String) (items : List (MapCfg × Nat)) :
    List (String × String) :=
  items.flatMap (fun it => (figures it.1 it.2).flatMap (fun fig =>
    fmt.map (fun f => (stem it.1.saveFile ++ "." ++ f, fig))))

end Verif.Plot
