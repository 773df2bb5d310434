"""Writes lean/Verif/Model/ShippedPars.lean from /repo/appletree/parameters/*.json."""
import json
import os
from fractions import Fraction

ROOT = "/repo/appletree/parameters"


def num(x):
    x = Fraction(x)
    return str(x.numerator) if x.denominator == 1 else f"{x.numerator}/{x.denominator}"


def pair(a, b):
    return "none" if a is None else f"some ({num(a)}, {num(b)})"


def main():
    o = ["/-", "The parameter files shipped with appletree: parameters/*.json.", "Written by tools/shipped_pars.py.", "-/",
         "import Verif.Base.Py", "import Mathlib.Data.Rat.Defs", "", "namespace Verif.ShippedPars", "open Verif", "",
         "/-- An entry of a parameter file: `prior_type`, `prior_args`, `allowed_range`, and `init_mean` with `init_std` (parameter.py 34-172 reads",
         "these). -/",
         "structure Entry where", "  type : String", "  args : PyDict String ℚ", "  allowed : Option (ℚ × ℚ)", "  init : Option (ℚ × ℚ)", ""]
    names = []
    for f in sorted(os.listdir(ROOT)):
        if not f.endswith(".json"):
            continue
        d = json.load(open(f"{ROOT}/{f}"), parse_float=Fraction)
        n = "file_" + f[:-5]
        names.append((f, n))
        o.append(f"/-- parameters/{f}, all lines. -/")
        o.append(f"def {n} : PyDict String Entry :=")
        rows = []
        for k, v in d.items():
            args = ", ".join(f'("{a}", {num(b)})' for a, b in v["prior_args"].items())
            r = v["allowed_range"] or [None, None]
            rows.append(f'("{k}", ⟨"{v["prior_type"]}", [{args}], {pair(*r)}, {pair(v["init_mean"], v["init_std"])}⟩)')
        o.append("  [" + ",\n   ".join(rows) + "]\n")
    o.append("/-- The shipped parameter files by name. -/")
    o.append("def files : PyDict String (PyDict String Entry) :=\n  [" + ", ".join(f'("{f}", {n})' for f, n in names) + "]\n")
    o.append("end Verif.ShippedPars")
    open("/verif/lean/Verif/Model/ShippedPars.lean", "w").write("\n".join(o) + "\n")


main()
