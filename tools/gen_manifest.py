#!/usr/bin/env python3
"""Regenerate MANIFEST.json from the theorem names in lean/Verif/Props (prefix Cnn_) and tools/notes.json."""
import json, re, glob, os
root = os.path.join(os.path.dirname(os.path.abspath(__file__)), '..')
thms = {}
for f in sorted(glob.glob(root + '/lean/Verif/Props/*.lean')):
    for l in open(f):
        m = re.match(r'(?:private )?theorem ((C\d+)_\w+)', l)
        if m and not l.startswith('private'):
            thms.setdefault(m.group(2), []).append('OnnxTool.Props.' + m.group(1))
notes = json.load(open(root + '/tools/notes.json'))
props = [json.loads(l) for l in open(root + '/properties.jsonl') if l.strip()]
claims = []
for p in props:
    n = notes.get(p['id'], {})
    t = thms.get(p['id'], [])
    if not t:
        st = n.get('status', 'not_applicable')
    else:
        st = n.get('status', 'proved')
    claims.append({'property': p['id'], 'status': st, 'theorems': t, 'note': n.get('note', '' if t else 'not yet proved')})
json.dump({'claims': claims}, open(root + '/MANIFEST.json', 'w'), indent=1)
from collections import Counter
print(Counter(c['status'] for c in claims))
extra = set(thms) - {p['id'] for p in props}
print('theorems without property:', extra)
