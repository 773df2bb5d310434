"""Write AXIOMS.txt: the axioms every theorem of the manifest depends on.

Run after `lake build`; uses a scratch file outside the repository.
"""
import json,subprocess,re,collections
names=[t for c in json.load(open('/verif/MANIFEST.json'))['claims'] for t in c['theorems']]
src='import Verif\n'+''.join(f'#print axioms {n}\n' for n in names)
open('/tmp/axioms_scratch.lean','w').write(src)
out=subprocess.run(['lake','env','lean','/tmp/axioms_scratch.lean'],cwd='/verif/lean',capture_output=True,text=True).stdout
out=re.sub(r'\n\s+',' ',out)
with open('/verif/AXIOMS.txt','w') as f:
    f.write(out)
print(len(names),len(out.splitlines()))
print(collections.Counter(re.sub(r"^'.*?' ",'',l) for l in out.splitlines()))
