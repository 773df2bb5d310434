#!/usr/bin/env python3
"""Seeded-bug runner: applies each edit of a mutant file to a scratch copy of the model, rebuilds and logs
which declarations fail.  Usage: seed.py mutants.py   (a list MUTANTS of dicts: file, old, new, edits, claim)."""
import json, re, shutil, subprocess, sys, os
SRC, DST = '/verif/lean', '/tmp/seed/lean'
def sync():
    os.makedirs('/tmp/seed', exist_ok=True)
    subprocess.run(['rsync', '-a', '--delete', SRC + '/', DST + '/'], check=False) if shutil.which('rsync') else (
        shutil.rmtree(DST, ignore_errors=True), shutil.copytree(SRC, DST, symlinks=True))
    subprocess.run('git archive HEAD lean | tar -x -C /tmp/seed', shell=True, cwd='/verif', check=True)  # committed sources only
def enclosing(path, line):
    name, start = '?', 0
    for i, l in enumerate(open(path), 1):
        if i > line: break
        m = re.match(r'(?:@\[[^\]]*\]\s*)?(?:private |noncomputable |protected )*(theorem|lemma|def|instance|example|structure|abbrev)\s*([^\s:({\[]*)', l)
        if m: name = m.group(2) or (m.group(1) + '@%d' % i)
    return name
def run(m):
    p = os.path.join(DST, m['file'])
    s = open(p).read()
    at = 0
    if s.count(m['old']) != 1:  # not unique in the file: the first occurrence inside the definition
        at = re.search(r'^(?:noncomputable )?def %s(?![\w.])' % re.escape(m['def']), s, re.M).start()
        assert m['old'] in s[at:].split('\n/-')[0], (m['edit'], 'occurrences', s.count(m['old']))
    open(p, 'w').write(s[:at] + s[at:].replace(m['old'], m['new'], 1))
    if '--fast' in sys.argv:  # stop at the first property theorem (or model definition) that fails
        q = subprocess.Popen(['lake', 'build'], cwd=DST, stdout=subprocess.PIPE, stderr=subprocess.STDOUT, text=True, start_new_session=True)
        out, rc = '', None
        for l in q.stdout:
            out += l
            if re.match(r'error: Verif/(Props|Model)/', l): os.killpg(q.pid, 15); rc = 1; break
        q.stdout.close(); q.wait(); rc = q.returncode if rc is None else rc
    else:
        r = subprocess.run(['lake', 'build'], cwd=DST, capture_output=True, text=True)
        out, rc = r.stdout + r.stderr, r.returncode
    failed, files = [], set()
    for f, ln in re.findall(r'error: (Verif/\S+?\.lean):(\d+):\d+', out):
        n = enclosing(os.path.join(DST, f), int(ln))
        if n not in failed: failed.append(n)
        files.add(f.split('/')[1])
    open(p, 'w').write(s)
    return rc, failed, out, files
if __name__ == '__main__':
    ns = {}
    exec(open(sys.argv[1]).read(), ns)
    only = [a for a in sys.argv[2:] if not a.startswith('--')]
    first = next((int(a[7:]) for a in sys.argv if a.startswith('--from=')), 0)
    sync()
    log = open('/verif/seeded/LOG.jsonl', 'a')
    for m in ns['MUTANTS'][first:]:
        if only and m['edit'] not in only: continue
        rc, failed, out, files = run(m)
        d = dict(definition=m['def'], edit=m['edit'], claim=m['claim'], failed=failed, tightened=[])
        # An edit that breaks the model itself tests no theorem; one stopped by a helper lemma leaves the property
        # theorem unbuilt, so whether the claim's own statement excludes it has to be argued separately.
        d['level'] = ('survived' if not rc else 'property' if 'Props' in files else
                      'lemma' if files & {'Lemmas', 'Spec'} else 'invalid')
        print({'survived': 'SURVIVED', 'invalid': 'INVALID'}.get(d['level'], 'CAUGHT'), json.dumps(d), flush=True)
        if rc and not failed: print(out[-2000:])
        if d['level'] in ('property', 'lemma') or '--log' in sys.argv: log.write(json.dumps(d) + '\n'); log.flush()
