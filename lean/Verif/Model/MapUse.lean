/-
Model of how plugins read the maps they declare: `Map.build` and `SigmaMap.build` on the default files
(config.py 201-231, 451-503), `SigmaMap.apply` (config.py 542-554).
-/
import Verif.Model.ShippedMaps
import Verif.Model.Config

namespace Verif.MapFile
open Verif Verif.Interp

/-- `Map.build` (config.py 201-231) with the file of this name in the folder maps (utils.py 120-138). -/
noncomputable def readFile (method name : String) : Res Built :=
  match mapFiles.get? name with
  | none => .error .fileNotFound
  | some r => build method r.file

/-- `apply` of a map with one coordinate; the shape of the positions is wrong for other maps. -/
noncomputable def read1 (method name : String) (x : ℝ) : Res ℝ :=
  match readFile method name with
  | .error e => .error e
  | .ok (.of1 f) => f x
  | .ok _ => .error .valueError

/-- `apply` of a map with two coordinates. -/
noncomputable def read2 (method name : String) (x y : ℝ) : Res ℝ :=
  match readFile method name with
  | .error e => .error e
  | .ok (.of2 f) => f x y
  | .ok _ => .error .valueError

/-- `apply` of a map with three coordinates. -/
noncomputable def read3 (method name : String) (x y z : ℝ) : Res ℝ :=
  match readFile method name with
  | .error e => .error e
  | .ok (.of3 f) => f x y z
  | .ok _ => .error .valueError

/-- `SigmaMap.apply` (config.py 542-554) of a map with one coordinate; `sigma` is the value of the scaler, which is read only
if there is one. -/
noncomputable def readSigma (u : Use) (sigma x : ℝ) : Res ℝ :=
  match u.files with
  | [median, lower, upper] => do
    let m ← read1 u.method median x
    let l ← read1 u.method lower x
    let h ← read1 u.method upper x
    .ok (Conf.sigmaApply m l h (u.scaler.map (fun _ => sigma)))
  | _ => .error .valueError

/-- The declaration of this configuration (plugin.py, `takes_config`). -/
def useOf (name : String) : Option Use := mapUses.find? (fun u => u.name == name)

/-- `self.<name>.apply(x)` for a declared map with one coordinate. -/
noncomputable def apply1 (name : String) (x : ℝ) : Res ℝ :=
  match useOf name with
  | some ⟨_, _, method, [f], _⟩ => read1 method f x
  | _ => .error .attributeError

/-- `self.<name>.apply(x)` for a declared map with two coordinates. -/
noncomputable def apply2 (name : String) (x y : ℝ) : Res ℝ :=
  match useOf name with
  | some ⟨_, _, method, [f], _⟩ => read2 method f x y
  | _ => .error .attributeError

/-- `self.<name>.apply(x)` for a declared map with three coordinates. -/
noncomputable def apply3 (name : String) (x y z : ℝ) : Res ℝ :=
  match useOf name with
  | some ⟨_, _, method, [f], _⟩ => read3 method f x y z
  | _ => .error .attributeError

/-- `self.<name>.apply(x, parameters)` for a declared `SigmaMap`. -/
noncomputable def applySigma (name : String) (sigma x : ℝ) : Res ℝ :=
  match useOf name with
  | some u => readSigma u sigma x
  | none => .error .attributeError

end Verif.MapFile
