"""Write lean/Verif/Model/ShippedNames.lean: what the modules of the package import, define and refer to.

Reads the source of /repo/appletree as text with the ast and symtable modules; nothing is imported or run.
"""
import ast
import builtins
import glob
import json
import os
import symtable

ROOT = "/repo/appletree"


def q(s):
    return json.dumps(s)


def lst(xs):
    return "[" + ", ".join(xs) + "]"


def strs(xs):
    return lst([q(x) for x in xs])


mods = {}
for d, _, fs in os.walk(ROOT):
    for f in fs:
        if f.endswith(".py"):
            r = os.path.relpath(os.path.join(d, f), "/repo")[:-3].replace("/", ".")
            mods[r[:-9] if r.endswith(".__init__") else r] = os.path.join(d, f)
packages = {m for m, p in mods.items() if p.endswith("__init__.py")}


def chain(n):
    ch = []
    while isinstance(n, ast.Attribute):
        ch.append(n.attr)
        n = n.value
    return (n.id, ch[::-1]) if isinstance(n, ast.Name) and isinstance(n.ctx, ast.Load) else None


def loads(node, inner):
    """Names and attribute chains read in the node; without `inner` bodies of functions are left out."""
    out = []
    local = set()

    def go(n):
        if isinstance(n, (ast.FunctionDef, ast.Lambda)) and not inner:
            for x in getattr(n, "decorator_list", []) + n.args.defaults + [d for d in n.args.kw_defaults if d]:
                go(x)
            for a in n.args.args + n.args.kwonlyargs:
                if a.annotation:
                    go(a.annotation)
            if getattr(n, "returns", None):
                go(n.returns)
            return
        c = chain(n) if isinstance(n, (ast.Attribute, ast.Name)) else None
        if c:
            out.append(c)
            return
        if isinstance(n, (ast.ListComp, ast.SetComp, ast.GeneratorExp, ast.DictComp)):
            for g in n.generators:
                for x in ast.walk(g.target):
                    if isinstance(x, ast.Name):
                        local.add(x.id)
        for x in ast.iter_child_nodes(n):
            go(x)

    go(node)
    return [c for c in dict.fromkeys((a, tuple(b)) for a, b in out) if c[0] not in local]


def source(m, node):
    if node.level == 0:
        return node.module
    base = m if m in packages else m.rpartition(".")[0]
    for _ in range(node.level - 1):
        base = base.rpartition(".")[0]
    return base + ("." + node.module if node.module else "")


def uses(cs, bound=()):
    return [f".use {q(a)} {strs(b)}" for a, b in cs if a not in bound]


def stmts(m, body, exported):
    out = []
    for s in body:
        if isinstance(s, ast.FunctionDef) or isinstance(s, ast.ClassDef):
            bound = set()
            if isinstance(s, ast.ClassDef):
                for x in s.body:
                    if isinstance(x, ast.FunctionDef):
                        bound.add(x.name)
                    for y in ast.walk(x) if isinstance(x, (ast.Assign, ast.AnnAssign, ast.For)) else []:
                        if isinstance(y, ast.Name) and isinstance(y.ctx, ast.Store):
                            bound.add(y.id)
            out += uses(loads(s, False), bound)
            ex = any(isinstance(x, ast.Name) and x.id == "export" for x in s.decorator_list)
            if s.name in exported:
                ex = False
            if ex:
                exported.append(s.name)
            out.append(f".define {q(s.name)} {'true' if ex else 'false'}")
        elif isinstance(s, ast.Import):
            for a in s.names:
                top = a.name.split(".")[0]
                if top == "appletree":
                    assert a.asname or a.name == top
                    out.append(f".importAs {q(a.name)} {q(a.asname or top)}")
                else:
                    out.append(f".external {q(a.asname or top)}")
        elif isinstance(s, ast.ImportFrom):
            src = source(m, s)
            if src.split(".")[0] != "appletree":
                assert all(a.name != "*" for a in s.names)
                out += [f".external {q(a.asname or a.name)}" for a in s.names]
            elif s.names[0].name == "*":
                out.append(f".star {q(src)}")
            else:
                for a in s.names:
                    sub = f"some {q(src + '.' + a.name)}" if src + "." + a.name in mods else "none"
                    sub = f"({sub})" if sub != "none" else sub
                    out.append(f".fromImport {q(src)} {q(a.name)} {q(a.asname or a.name)} {sub}")
        elif isinstance(s, (ast.Assign, ast.AnnAssign, ast.AugAssign)):
            v = s.value
            targets = s.targets if isinstance(s, ast.Assign) else [s.target]
            if isinstance(v, ast.Call) and isinstance(v.func, ast.Name) and v.func.id == "exporter":
                assert ast.unparse(targets[0]) == "(export, __all__)", ast.unparse(targets[0])
                own = any(k.arg == "export_self" and k.value.value for k in v.keywords)
                if own:
                    exported.append("exporter")
                out += uses(loads(v, False)) + [f".exporter {'true' if own else 'false'}"]
                continue
            out += uses(loads(s, False))
            for t in targets:
                for x in ast.walk(t):
                    if isinstance(x, ast.Name) and isinstance(x.ctx, ast.Store):
                        out.append(f".define {q(x.id)} false")
        elif isinstance(s, ast.If):
            out += uses(loads(s.test, False)) + stmts(m, s.body, exported) + stmts(m, s.orelse, exported)
        elif isinstance(s, ast.Try):
            out += stmts(m, s.body, exported)
            for h in s.handlers:
                out += (uses(loads(h.type, False)) if h.type else []) + stmts(m, h.body, exported)
            out += stmts(m, s.orelse, exported) + stmts(m, s.finalbody, exported)
        elif isinstance(s, (ast.Expr, ast.Raise, ast.Assert)):
            out += uses(loads(s, False))
        elif isinstance(s, ast.For):
            out += uses(loads(s.iter, False))
            out += [f".define {q(x.id)} false" for x in ast.walk(s.target) if isinstance(x, ast.Name)]
            out += stmts(m, s.body, exported)
        elif isinstance(s, ast.With):
            for i in s.items:
                out += uses(loads(i.context_expr, False))
            out += stmts(m, s.body, exported)
        else:
            assert isinstance(s, ast.Pass), ast.dump(s)
    return out


def later(m):
    """Global names and attribute chains on them read in the bodies of functions of the module."""
    src = open(mods[m]).read()
    names = set()

    def walk(t):
        if t.get_type() != "module":
            for s in t.get_symbols():
                if s.is_global() and s.is_referenced():
                    names.add(s.get_name())
        for c in t.get_children():
            walk(c)

    walk(symtable.symtable(src, mods[m], "exec"))
    out = {(n, ()) for n in names}
    for n in ast.walk(ast.parse(src)):
        if isinstance(n, ast.Attribute):
            c = chain(n)
            if c and c[0] in names:
                out.add((c[0], tuple(c[1])))
    # a chain is enough for its first parts
    return sorted(c for c in out if not any(o[0] == c[0] and o[1] != c[1] and o[1][:len(c[1])] == c[1] for o in out))


def main():
    o = ["""/-
Data: what the modules of the package import, define and refer to, in the order of their statements.

Written by `tools/shipped_names.py` from the source text of /repo/appletree.  Both branches of a conditional statement are listed one
after the other, and optional packages are taken as installed; names from outside the package are `external`.
-/
import Verif.Model.Names

namespace Verif.Names
open Verif
"""]
    idents = []
    allnames = set()
    for m in sorted(mods):
        ident = m.replace(".", "_")
        ss = stmts(m, ast.parse(open(mods[m]).read()).body, [])
        seen, keep = set(), []
        for s in ss:
            if s.startswith(".use"):
                if s in seen:
                    continue
                seen.add(s)
            else:
                # a use may have to be looked up again after a rebinding; bindings keep names bound
                pass
            keep.append(s)
        rel = os.path.relpath(mods[m], "/repo")
        n = len(open(mods[m]).read().splitlines())
        par = "none"
        if "." in m:
            a, _, b = m.rpartition(".")
            par = f"(some ({q(a)}, {q(b)}))"
        lat = later(m)
        o.append(f"/-- `{rel}` (lines 1-{n}). -/\ndef {ident} : Mod where\n  parent := {par}\n  body := [\n    " +
                 ",\n    ".join(keep) + "]\n  later := [" + ", ".join(f"({q(a)}, {strs(b)})" for a, b in lat) + "]\n")
        idents.append((m, ident))
        allnames |= {a for a, _ in lat} | {s.split('"')[1] for s in keep if s.startswith(".use")}
    bi = sorted(n for n in allnames if hasattr(builtins, n))
    o.append("/-- The names of python itself that the package uses. -/\ndef builtinNames : List String := " + strs(bi) + "\n")
    o.append("/-- The package: all modules under /repo/appletree. -/\ndef package : Program := " +
             lst([f"({q(m)}, {i})" for m, i in idents]) + "\n")
    comps, types = set(), set()
    for p in sorted(glob.glob(f"{ROOT}/instructs/*.json")):
        for name, l in json.load(open(p))["likelihoods"].items():
            types.add(l.get("type", "Likelihood"))
            for c in l["components"].values():
                comps.add(c if isinstance(c, str) else c["component_cls"])
    o.append("/-- The component classes and likelihood types named in the shipped instructions (/repo/appletree/instructs). -/\n"
             f"def instructComponents : List String := {strs(sorted(comps))}\n"
             f"def instructTypes : List String := {strs(sorted(types))}\n")
    o.append("/-- The modules that define component classes. -/\ndef componentModules : List String := " +
             strs(sorted(m for m in mods if m.startswith("appletree.components."))) + "\n")
    plugs = []
    for m in sorted(mods):
        if m.startswith("appletree.plugins."):
            for s in ast.parse(open(mods[m]).read()).body:
                if isinstance(s, ast.ClassDef):
                    plugs.append((m, s.name))
    o.append("/-- The plugin classes by module. -/\ndef pluginClasses : List (String × String) := " +
             lst([f"({q(a)}, {q(b)})" for a, b in plugs]) + "\n")
    o.append("end Verif.Names\n")
    open("/verif/lean/Verif/Model/ShippedNames.lean", "w").write("\n".join(wrap(x) for x in o))


def wrap(text):
    out = []
    for line in text.split("\n"):
        while len(line) > 130 and ", " in line[60:130]:
            i = line.rindex(", ", 0, 130) + 1
            out.append(line[:i])
            line = "    " + line[i + 1:]
        out.append(line)
    return "\n".join(out)


if __name__ == "__main__":
    main()
