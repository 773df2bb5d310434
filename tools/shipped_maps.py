"""Write lean/Verif/Model/ShippedMaps.lean: the map files shipped with the package and the plugins reading them.

Reads /repo/appletree as text with the ast and json modules; nothing is imported or run.
"""
import ast
import json
import os
import sys
from decimal import Decimal

sys.path.insert(0, "/verif/tools")
from shipped import MODS, ROOT, lst, q, wrap


def ints(xs):
    """Numerators over a common power of ten."""
    k = max([0] + [-d.as_tuple().exponent for d in xs])
    return 10 ** k, [int(d.scaleb(k)) for d in xs]


def flat(a):
    if not isinstance(a, list):
        return [], [a]
    parts = [flat(x) for x in a]
    assert all(p[0] == parts[0][0] for p in parts)
    return [len(a)] + parts[0][0], [v for p in parts for v in p[1]]


def num(xs):
    return "[" + ", ".join(map(str, xs)) + "]"


def uses():
    for m in MODS:
        for node in ast.parse(open(f"{ROOT}/plugins/{m}.py").read()).body:
            if not isinstance(node, ast.ClassDef):
                continue
            for dec in node.decorator_list:
                if isinstance(dec, ast.Call) and dec.func.id == "takes_config":
                    for c in dec.args:
                        if c.func.id not in ("Map", "SigmaMap"):
                            continue
                        kw = {k.arg: ast.literal_eval(k.value) for k in c.keywords}
                        assert set(kw) <= {"name", "method", "default", "help"}
                        yield m, node.name, c.func.id, kw, c.lineno, c.end_lineno


def main():
    o = ["""/-
Data: the map files shipped with the package and the plugins reading them.

Written by `tools/shipped_maps.py` from /repo/appletree/maps/*.json and /repo/appletree/plugins/*.py.  Numbers are integers
over a common power of ten, that is the decimals in the files without rounding to binary.
-/
import Verif.Model.MapFile
import Verif.Model.Shipped

namespace Verif.MapFile
open Verif Verif.Interp

/-- A file as decimals: coordinates and values of a point map, or edges, shape and values (last axis fastest) of a grid. -/
inductive Raw
  | point (name : String) (cden : Nat) (coords : List Int) (vden : Nat) (vals : List Int)
  | grid (names : List String) (cden : Nat) (lowers uppers : List Int) (shape : List Nat) (vden : Nat) (vals : List Int)

/-- The decimals `k / den`. -/
noncomputable def decimals (den : Nat) (l : List Int) : List ℝ := l.map (fun k : Int => (k : ℝ) / (den : ℝ))

/-- The parsed file (utils.py 120-124).  All shipped files have the type point or regbin, which the script checks. -/
noncomputable def Raw.file : Raw → File
  | .point name cden coords vden vals => ⟨some (.one "point"), some (.one name), .point (decimals cden coords) (decimals vden vals)⟩
  | .grid names cden lowers uppers shape vden vals =>
    let ax := fun i : Nat => (⟨((lowers.getD i 0 : Int) : ℝ) / cden, ((uppers.getD i 0 : Int) : ℝ) / cden⟩ : Axis ℝ)
    ⟨some (.one "regbin"), some (.axes names),
      match shape with
      | [n0, n1] => .reg2 (ax 0) (ax 1) ⟨n0, n1, fun i j => ((vals.getD (i * n1 + j) 0 : Int) : ℝ) / vden⟩
      | [n0, n1, n2] => .reg3 (ax 0) (ax 1) (ax 2) ⟨n0, n1, n2, fun i j k => ((vals.getD ((i * n1 + j) * n2 + k) 0 : Int) : ℝ) / vden⟩
      | _ => .reg0⟩

/-- A map declared by a plugin: the plugin, the name of the configuration, the method, the default files (three for a
`SigmaMap`) and the name of the scaler. -/
structure Use where
  plugin : Comp.Plugin
  name : String
  method : String
  files : List String
  scaler : Option String
deriving DecidableEq
"""]
    names = []
    for f in sorted(os.listdir(f"{ROOT}/maps")):
        if not f.endswith(".json"):
            continue
        d = json.load(open(f"{ROOT}/maps/{f}"), parse_float=Decimal, parse_int=Decimal)
        i = "file" + f[:-5]
        names.append((f, i))
        if d["coordinate_type"] == "point":
            assert set(d) == {"coordinate_type", "coordinate_name", "coordinate_system", "map"}
            cd, cs = ints(d["coordinate_system"])
            vd, vs = ints(d["map"])
            body = f".point {q(d['coordinate_name'])} {cd}\n" + wrap(num(cs)) + f"\n  {vd}\n" + wrap(num(vs))
        else:
            assert d["coordinate_type"] == "regbin"
            assert set(d) == {"coordinate_type", "coordinate_name", "coordinate_lowers", "coordinate_uppers", "map"}
            n = len(d["coordinate_lowers"])
            cd, cs = ints(d["coordinate_lowers"] + d["coordinate_uppers"])
            shape, vs = flat(d["map"])
            assert len(shape) == n
            vd, vs = ints(vs)
            body = (f".grid {lst(map(q, d['coordinate_name']))} {cd} {num(cs[:n])} {num(cs[n:])} {num(shape)} {vd}\n" + wrap(num(vs)))
        o.append(f"/-- maps/{f}. -/\ndef {i} : Raw :=\n  {body}\n")
    o.append("/-- The folder maps. -/\ndef mapFiles : PyDict String Raw :=\n  [" + ",\n   ".join(f"({q(f)}, {i})" for f, i in names) + "]\n")
    rows, where = [], []
    for m, cls, kind, kw, l0, l1 in uses():
        dflt = kw["default"]
        method = kw.get("method", "IDW")
        scaler = None
        if kind == "SigmaMap":
            if isinstance(dflt, list):
                assert len(dflt) in (3, 4)
                scaler = dflt[3] if len(dflt) == 4 else kw["name"] + "_sigma"
                dflt = dflt[:3]
            else:
                dflt = [dflt] * 3
        else:
            dflt = [dflt]
        sc = f"some {q(scaler)}" if scaler else "none"
        where.append(f"{m}.py {l0}-{l1}")
        rows.append(f"⟨Shipped.{m}_{cls}, {q(kw['name'])}, {q(method)}, {lst(map(q, dflt))}, {sc}⟩")
    o.append("/-- The maps declared by plugins (" + ", ".join(where) + "); the method is `IDW` unless given (config.py 199). -/")
    o.append("def mapUses : List Use :=\n  [" + ",\n   ".join(rows) + "]\n")
    o.append("end Verif.MapFile")
    open("/verif/lean/Verif/Model/ShippedMaps.lean", "w").write("\n".join(o) + "\n")


if __name__ == "__main__":
    main()
