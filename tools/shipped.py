"""Write lean/Verif/Model/Shipped.lean: the class attributes of the shipped plugins and what the shipped components register.

Reads the source of /repo/appletree as text with the ast module; nothing is imported or run.
"""
import ast
import json
import os
import textwrap

ROOT = "/repo/appletree"
MODS = ["common", "er_microphys", "lyqy", "detector", "reconstruction", "efficiency", "nestv2", "er_nestv2"]


def q(s):
    return '"' + s.replace("\\", "\\\\").replace('"', '\\"') + '"'


def lst(xs):
    return "[" + ", ".join(xs) + "]"


def wrap(s):
    return textwrap.fill(s, 112, initial_indent="  ", subsequent_indent="   ", break_long_words=False, break_on_hyphens=False)


def pairs(d):
    return lst(f"({q(k)}, {q(v)})" for k, v in d.items())


def value(v):
    if isinstance(v, str):
        return f".str {q(v)}"
    return f".list {lst(f'.str {q(x)}' for x in v)}"


def plugins(mod):
    tree = ast.parse(open(f"{ROOT}/plugins/{mod}.py").read())
    out = []
    for node in tree.body:
        if not isinstance(node, ast.ClassDef):
            continue
        attrs = {"depends_on": [], "provides": [], "parameters": ()}
        args = None
        for st in node.body:
            if isinstance(st, ast.Assign):
                attrs[st.targets[0].id] = ast.literal_eval(st.value)
            if isinstance(st, ast.FunctionDef) and st.name == "simulate":
                args = [a.arg for a in st.args.args]
        assert args[:3] == ["self", "key", "parameters"] and args[3:] == list(attrs["depends_on"]), node.name
        cfgs = []
        for dec in node.decorator_list:
            if isinstance(dec, ast.Call) and dec.func.id == "takes_config":
                for c in dec.args:
                    kw = {k.arg: k.value for k in c.keywords}
                    cfgs.append((c.func.id, ast.literal_eval(kw["name"]), ast.unparse(kw["default"])))
        out.append((node.name, node.lineno, node.end_lineno, attrs, cfgs))
    return out


def certificates(data, regs):
    """Topological orders of the data names, used in the proofs only."""
    o = ["""/-
A topological order of the data names of each shipped component.  Written by `tools/shipped.py`; used in proofs only.
-/
namespace Verif.Shipped
"""]
    for c, ids in regs.items():
        reg = {}
        for i in ids:
            for d in data[i][0]:
                reg[d] = i
        order = []
        while len(order) < len(reg):
            new = [d for d in reg if d not in order and all(x == "batch_size" or x in order for x in data[reg[d]][1])]
            assert new
            order += new
        o.append(f"def order_{c} : List String :=\n" + wrap(lst(map(q, order))) + "\n")
    o.append("end Verif.Shipped")
    open("/verif/lean/Verif/Lemmas/ShippedOrder.lean", "w").write("\n".join(o) + "\n")


def main():
    o = []
    o.append("""/-
Data: the class attributes of the shipped plugins and what the shipped components register.

Written by `tools/shipped.py` from the source text of /repo/appletree/plugins and /repo/appletree/components.
`register_all` (component.py 248-265) goes through `dir(module)`, in alphabetical order, where it also finds the base class
`Plugin`, which provides nothing.  The default of a configuration is its source text.
-/
import Verif.Model.Registry
import Verif.Model.Config

namespace Verif.Shipped
open Verif Comp

/-- The base class (plugin.py 14-31), which every plugin module imports. -/
def base : Plugin := ⟨"Plugin", [], [], [], []⟩
""")
    ident = {}
    sigma = {}
    modlists = {}
    modids = {}
    data = {}
    for m in MODS:
        o.append(f"/-! ### plugins/{m}.py -/\n")
        names = []
        for name, l0, l1, a, cfgs in plugins(m):
            i = f"{m}_{name}"
            ident[(m, name)] = i
            data[i] = (a["provides"], a["depends_on"])
            names.append(name)
            for k, n, dflt in cfgs:
                if k == "SigmaMap":
                    sigma[n] = ast.literal_eval(dflt)
            o.append(f"/-- `{name}` ({m}.py {l0}-{l1}). -/")
            o.append(f"def {i} : Plugin :=")
            o.append(f"  ⟨{q(name)}, {lst(map(q, a['provides']))}, {lst(map(q, a['depends_on']))},")
            par = a["parameters"]
            par = [par] if isinstance(par, str) else list(par)
            c = lst(f"⟨{q(n)}, some {q(d)}⟩" for _, n, d in cfgs)
            o.append(f"   {lst(map(q, par))}, {c}⟩\n")
        modlists[m] = names
        order = sorted(names + ["Plugin"])
        modids[f"mod_{m}"] = [ident[(m, n)] for n in order if n != "Plugin"]
        o.append(f"/-- What `register_all` finds in the module `{m}`, in the order of `dir`. -/")
        o.append(f"def mod_{m} : List Plugin :=")
        o.append(wrap(lst("base" if n == "Plugin" else ident[(m, n)] for n in order)) + "\n")
    # namespace appletree.plugins: later star imports replace earlier ones
    ns = {}
    for m in MODS:
        for n in modlists[m]:
            ns[n] = ident[(m, n)]
    o.append("/-- The namespace `appletree.plugins` (plugins/__init__.py 1-23): later star imports replace earlier ones. -/")
    o.append("def namespace_ : PyDict String Plugin :=")
    o.append("  [" + ",\n   ".join(f"({q(n)}, {i})" for n, i in ns.items()) + "]\n")
    o.append("/-- The configurations that are `SigmaMap`s (efficiency.py 25-74). -/")
    o.append("def sigmaMaps : List Conf.Conf :=")
    o.append("  [" + ",\n   ".join(f"⟨{q(n)}, some ({value(v)})⟩" for n, v in sigma.items()) + "]\n")
    comps = []
    regs = {}
    for f in ["er", "nr", "yields"]:
        tree = ast.parse(open(f"{ROOT}/components/{f}.py").read())
        for node in tree.body:
            if not isinstance(node, ast.ClassDef):
                continue
            init = [s for s in node.body if isinstance(s, ast.FunctionDef)][0]
            parts = []
            for st in init.body:
                call = st.value
                t = ast.unparse(call)
                if t.startswith("self.register_all("):
                    m = t[len("self.register_all(apt.plugins."):-1]
                    parts.append(f"mod_{m}")
                elif t.startswith("self.register("):
                    n = t[len("self.register(apt.plugins."):-1]
                    if "." in n:
                        m, n = n.split(".")
                        parts.append(f"[{ident[(m, n)]}]")
                    else:
                        parts.append(f"[{ns[n]}]")
                else:
                    assert "super" in t, t
            comps.append(node.name)
            regs[node.name] = [i for p in parts for i in (modids[p] if p in modids else [p[1:-1]])]
            o.append(f"/-- What `{node.name}` registers, in order (components/{f}.py {node.lineno}-{node.end_lineno}). -/")
            o.append(f"def reg_{node.name} : List Plugin :=\n" + wrap(" ++ ".join(parts)) + "\n")
    o.append("/-- The shipped simulated components. -/")
    o.append("def components : List (String × List Plugin) :=\n  [" + ",\n   ".join(f"({q(c)}, reg_{c})" for c in comps) + "]\n")
    for f in sorted(os.listdir(f"{ROOT}/parameters")):
        if f.endswith(".json"):
            keys = list(json.load(open(f"{ROOT}/parameters/{f}")))
            o.append(f"/-- The parameters of parameters/{f}. -/")
            o.append(f"def par_{f[:-5]} : List String :=\n" + wrap(lst(map(q, keys))) + "\n")
    o.append("""/-- What is read here of a likelihood in an instruction file: its components with the names of their classes, the copied
parameters, the aliases, and the observables. -/
structure LlhData where
  name : String
  comps : List (String × String)
  copies : PyDict String String
  aliases : PyDict String String
  binsOn : List String

/-- What is read here of an instruction file: the configured sigma maps, the likelihoods, and the parameter file. -/
structure InstructData where
  name : String
  sigmas : PyDict String Conf.CVal
  llhs : List LlhData
  parKeys : List String
""")
    files = []
    for f in sorted(os.listdir(f"{ROOT}/instructs")):
        d = json.load(open(f"{ROOT}/instructs/{f}"))
        i = "inst_" + f[:-5]
        files.append(i)
        o.append(f"/-- instructs/{f}. -/")
        o.append(f"def {i} : InstructData where\n  name := {q(f)}")
        sig = [f"({q(k)}, .atom ({value(v)}))" for k, v in d["configs"].items() if k in sigma]
        o.append("  sigmas :=\n    [" + ",\n     ".join(sig) + "]")
        ls = []
        for n, l in d["likelihoods"].items():
            comps = lst(f"({q(k)}, {q(v if isinstance(v, str) else v['component_cls'])})" for k, v in l["components"].items())
            ls.append(f"⟨{q(n)}, {comps},\n      {pairs(l['copy_parameters'])},\n      {pairs(l.get('parameter_alias', {}))}, "
                      f"{lst(map(q, l['bins_on']))}⟩")
        o.append("  llhs :=\n    [" + ",\n     ".join(ls) + "]")
        o.append(f"  parKeys := par_{d['par_config'][:-5]}\n")
    o.append("/-- The shipped instruction files. -/")
    o.append(f"def instructs : List InstructData := {lst(files)}\n")
    o.append("/-- The options each instruction file sets (its `configs`), with the likelihoods they are set for; none means for all. -/")
    rows = []
    for f in sorted(os.listdir(f"{ROOT}/instructs")):
        d = json.load(open(f"{ROOT}/instructs/{f}"))
        opts = ",\n     ".join(f"({q(k)}, {lst(map(q, v)) if isinstance(v, dict) else '[]'})" for k, v in d["configs"].items())
        rows.append(f"({q(f)},\n    [{opts}])")
    o.append("def instructOptions : PyDict String (PyDict String (List String)) :=\n  [" + ",\n   ".join(rows) + "]\n")
    o.append("end Verif.Shipped")
    certificates(data, regs)
    open("/verif/lean/Verif/Model/Shipped.lean", "w").write("\n".join(o) + "\n")


main()
