#!/usr/bin/env python3
"""Mechanical mutants: every place in a model definition where one operator, constant or branch can be exchanged for
another.  Usage: automut.py SEED N OUT.py   writes a random sample of N such edits in the format of seed.py."""
import glob, os, random, re, sys
OPS = [(r' < ', ' ≤ '), (r' ≤ ', ' < '), (r' > ', ' ≥ '), (r' ≥ ', ' > '), (r' \+ ', ' - '), (r' - ', ' + '), (r' \* ', ' + '),
       (r' / ', ' * '), (r' && ', ' || '), (r' \|\| ', ' && '), (r' ∧ ', ' ∨ '), (r' ∨ ', ' ∧ '), (r' = ', ' ≠ '), (r' == ', ' != '),
       (r' != ', ' == '), (r'\btrue\b', 'false'), (r'\bfalse\b', 'true'), (r'(?<![\w.])0(?![\w.])', '1'), (r'(?<![\w.])1(?![\w.])', '2'),
       (r'(?<![\w.])2(?![\w.])', '3'), (r'\bmax\b', 'min'), (r'\bmin\b', 'max'), (r'\.error \.keyError', '.error .valueError'),
       (r'\.error \.valueError', '.error .keyError'), (r'\.error \.runtimeError', '.error .valueError'),
       (r'\.error \.assertionError', '.error .valueError'), (r'\.negInf\b', '.posInf'), (r'\.posInf\b', '.negInf'),
       (r'\.any\b', '.all'), (r'\.all\b', '.any'), (r'\bfilter\b', 'takeWhile'), (r'\.reverse\b', ''), (r'\.head\?', '.getLast?'),
       (r'\.getLast\?', '.head?'), (r'\.fst\b', '.snd'), (r'\bnot\b', 'id'), (r'!(?=[a-zA-Z(])', ''), (r'\.dropLast\b', '.tail'),
       (r'\.tail\b', '.dropLast'), (r'\.succ\b', ''), (r'\.floor\b', '.ceil'), (r'⌊', '⌈'), (r'\.eraseDups\b', ''), (r'\.dedup\b', '')]
def defs(path):
    s = open(path).read()
    for m in re.finditer(r'^(?:@\[[^\]]*\] *)?(?:noncomputable )?(?:def|abbrev) ([\w.\'?!]+)', s, re.M):
        end = re.search(r'\n\n|\n/-|\n(?:noncomputable |@\[|def |theorem |structure |inductive |end |namespace |section )', s[m.end():])
        b, e = m.start(), m.end() + (end.start() if end else len(s) - m.end())
        k = s.find(':=', m.end(), e); k2 = s.find('\n  |', m.end(), e)
        body = min([x for x in (k, k2) if x >= 0], default=None)
        if body is not None:
            yield m.group(1), s, body, e
def main(seed, n, out):
    rng, muts = random.Random(seed), []
    for p in sorted(glob.glob('/verif/lean/Verif/Model/*.lean')):
        if os.path.basename(p).startswith('Shipped'): continue
        for name, s, b, e in defs(p):
            for pat, rep in OPS:
                for m in re.finditer(pat, s[b:e]):
                    i, j = b + m.start(), b + m.end()
                    ls, le = s.rfind('\n', 0, i) + 1, s.find('\n', j)
                    if re.match(r' *\|', s[ls:i]) and '=>' not in s[ls:i]: continue  # a pattern, not a computation
                    muts.append((os.path.relpath(p, '/verif/lean'), name, i, j, rep, s[ls:le], s[ls:i] + rep + s[j:le]))
    print(len(muts), 'possible'); rng.shuffle(muts)
    seen, pick = {}, []
    for t in muts:
        if seen.get(t[1], 0) < 1: seen[t[1]] = seen.get(t[1], 0) + 1; pick.append(t)
    pick = pick[:n]
    with open(out, 'w') as f:
        f.write('MUTANTS = [\n')
        for fl, d, i, j, rep, old, new in pick:
            f.write(repr(dict(file=fl, **{'def': d}, old=old, new=new, edit='%s: %s  =>  %s' % (d, old.strip(), new.strip()),
                              claim='what %s computes (exchange of one operator)' % d)) + ',\n')
        f.write(']\n')
main(int(sys.argv[1]), int(sys.argv[2]), sys.argv[3])
