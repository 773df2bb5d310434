import json,re,glob
names={}
for f in sorted(glob.glob('/verif/lean/Verif/Props/*.lean')):
    ns=[]
    for l in open(f):
        m=re.match(r'namespace (\S+)',l)
        if m: ns.append(m.group(1))
        m=re.match(r'end (\S+)\s*$',l)
        if m and ns and ns[-1]==m.group(1): ns.pop()
        m=re.match(r'(?:theorem|lemma) (C\d\d\w*)',l)
        if m:
            cid=m.group(1).split('_')[0]
            names.setdefault(cid,[]).append('.'.join(ns+[m.group(1)]))
exec(open('/verif/tools/manifest_notes.py').read())
claims=[]
ids=[json.loads(l)['id'] for l in open('/verif/properties.jsonl')]
for cid in ids:
    if cid in names:
        st,note=NOTES.get(cid,('proved',''))
        claims.append(dict(property=cid,status=st,theorems=names[cid],note=note))
    elif cid in NOTES:
        st,note=NOTES[cid]; claims.append(dict(property=cid,status=st,theorems=[],note=note))
json.dump({'claims':claims},open('/verif/MANIFEST.json','w'),indent=1)
print(len(claims), [c for c in names if c not in ids])
