"""Writes lean/Verif/Model/ShippedLiterature.lean from /repo/appletree/instructs/literature_lyqy.json."""
import json
from fractions import Fraction

PATH = "/repo/appletree/instructs/literature_lyqy.json"


def num(x):
    x = Fraction(x)
    return str(x.numerator) if x.denominator == 1 else f"{x.numerator}/{x.denominator}"


def nums(xs):
    return "[" + ", ".join(map(num, xs)) + "]"


def table(t):
    return "[" + ",\n     ".join(f'("{k}", {nums(v)})' for k, v in zip(*t)) + "]"


def main():
    d = json.load(open(PATH), parse_float=Fraction)
    c = d["configs"]
    rows = []
    for n, l in d["likelihoods"].items():
        (comp, cls), = l["components"].items()
        spec = c["energy_twohalfnorm"].get(n)
        rows.append(f'  ⟨"{n}", "{cls}", "{l["bins_on"][1]}", "{l["variable_type"]}",\n'
                    f'    {table(l["logpdf_args"])},\n'
                    f'    {table(spec) if spec else "[]"},\n'
                    f'    {num(c["clip_lower_energy"][n])}, {num(c["clip_upper_energy"][n])}⟩')
    o = ["/-", "The literature likelihoods shipped with appletree: instructs/literature_lyqy.json.", "Written by tools/literature.py.", "-/",
         "import Verif.Base.Py", "import Mathlib.Data.Rat.Defs", "", "namespace Verif.Lit", "open Verif", "",
         "/-- What is read here of a literature likelihood in instructs/literature_lyqy.json: its name, the class of its component, the yield it",
         "compares, the shape and its arguments, the energies of its points (the option `energy_twohalfnorm`), and the energy range (the options",
         "`clip_lower_energy` and `clip_upper_energy`). -/",
         "structure LitData where", "  name : String", "  cls : String", "  yield : String", "  shape : String",
         "  args : PyDict String (List ℚ)", "  energies : PyDict String (List ℚ)", "  lower : ℚ", "  upper : ℚ", "",
         "/-- instructs/literature_lyqy.json, lines 2-142. -/", "def shipped : List LitData := [", ",\n".join(rows) + "]", "",
         "end Verif.Lit"]
    open("/verif/lean/Verif/Model/ShippedLiterature.lean", "w").write("\n".join(o) + "\n")


main()
