#!/bin/sh
# prints the axioms of every theorem of MANIFEST.json into tools/axioms.json (needs a finished lake build)
cd "$(dirname "$0")/../lean" || exit 1
python3 - <<'PY'
import json
m=json.load(open('../MANIFEST.json'))
ts=[t for c in m['claims'] for t in c['theorems']]
open('/tmp/ax.lean','w').write('import Verif\n'+''.join(f'#print axioms {t}\n' for t in dict.fromkeys(ts)))
PY
lake env lean /tmp/ax.lean > /tmp/ax.out 2>&1
python3 - <<'PY'
import json,re
s=open('/tmp/ax.out').read().replace('\n ',' ')
r={}
for l in s.split('\n'):
    m=re.match(r"'([^']+)' depends on axioms: \[(.*)\]",l)
    if m: r[m[1]]=[a.strip() for a in m[2].split(',')]; continue
    m=re.match(r"'([^']+)' does not depend on any axioms",l)
    if m: r[m[1]]=[]
json.dump(r,open('../tools/axioms.json','w'),indent=0)
print(len(r))
PY
