"""Write lean/Verif/Model/ShippedCode.lean: what the body of `simulate` of each shipped plugin reads and returns.

Reads the source of /repo/appletree as text with the ast module; nothing is imported or run.
"""
import ast
import sys

sys.path.insert(0, "/verif/tools")
from shipped import MODS, ROOT, lst, q, wrap


def bodies(mod):
    for node in ast.parse(open(f"{ROOT}/plugins/{mod}.py").read()).body:
        if not isinstance(node, ast.ClassDef):
            continue
        meths = [s for s in node.body if isinstance(s, ast.FunctionDef)]
        sim, = [m for m in meths if m.name == "simulate"]
        assert [ast.unparse(b) for b in node.bases] == ["Plugin"] and len(meths) == 1, node.name
        assert not sim.args.vararg and not sim.args.kwonlyargs and not sim.args.kwarg
        reads, attrs, uses = [], [], 0
        for n in ast.walk(sim):
            if isinstance(n, ast.Name) and n.id in ("parameters", "self"):
                uses += 1
            if isinstance(n, ast.Subscript) and isinstance(n.value, ast.Name) and n.value.id == "parameters":
                reads.append(n.slice.value)
                uses -= 1
            if isinstance(n, ast.Attribute) and isinstance(n.value, ast.Name) and n.value.id == "self":
                attrs.append(n.attr)
                uses -= 1
        # what is left are arguments of `map.apply(x, parameters)`, whose scaler is declared by the map
        applies = [n for n in ast.walk(sim) if isinstance(n, ast.Call) and any(
            isinstance(a, ast.Name) and a.id == "parameters" for a in n.args)]
        assert all(n.func.attr == "apply" for n in applies) and uses == len(applies), (node.name, uses, len(applies))
        rets = []
        for n in ast.walk(sim):
            if isinstance(n, ast.Return):
                rets.append(len(n.value.elts))
        yield (f"{mod}_{node.name}", sim.lineno, sim.end_lineno, [a.arg for a in sim.args.args], len(sim.args.defaults),
               sorted(set(reads)), sorted(set(attrs)), rets)


def main():
    o = ["""/-
Data: what the body of `simulate` of each shipped plugin reads and returns.

Written by `tools/shipped_code.py` from the source text of /repo/appletree/plugins.  The script also checks that every class derives
from `Plugin` directly, that `simulate` is its only method, and that `parameters` and `self` occur in no other way than
`parameters["name"]`, `self.name` and as an argument of the method `apply` of a map.
-/
import Verif.Model.Shipped

namespace Verif.Shipped
open Verif Comp

/-- The names of the arguments of `simulate`, the number of those with defaults, the parameters it reads by name, the attributes of
the instance it reads, and the number of values in each of its return statements. -/
structure Body where
  plugin : Plugin
  args : List String
  defaults : Nat
  reads : List String
  attrs : List String
  returns : List Nat
"""]
    ids = []
    for m in MODS:
        for i, l0, l1, args, nd, reads, attrs, rets in bodies(m):
            ids.append("body_" + i)
            o.append(f"/-- `simulate` ({m}.py {l0}-{l1}). -/")
            o.append(f"def body_{i} : Body :=")
            o.append(wrap(f"⟨{i}, {lst(map(q, args))}, {nd}, {lst(map(q, reads))}, {lst(map(q, attrs))}, {lst(map(str, rets))}⟩") + "\n")
    o.append("/-- All shipped plugins. -/\ndef bodies : List Body :=\n" + wrap(lst(ids)) + "\n")
    o.append("end Verif.Shipped")
    open("/verif/lean/Verif/Model/ShippedCode.lean", "w").write("\n".join(o) + "\n")


main()
