#!/usr/bin/env python3
"""Regenerate MANIFEST.json: theorems are found by name prefix C<nn>_ in lean/Verif/Props."""
import json, re, glob, os
root = os.path.dirname(os.path.dirname(os.path.abspath(__file__)))
notes = json.load(open(os.path.join(root, 'tools', 'notes.json')))
props = [json.loads(l)['id'] for l in open(os.path.join(root, 'properties.jsonl'))]
found = {}
for f in sorted(glob.glob(os.path.join(root, 'lean/Verif/Props/*.lean'))):
    for m in re.finditer(r'^theorem (C(\d\d+)_\w+)', open(f).read(), re.M):
        found.setdefault('C' + m.group(2), []).append('Verif.Props.' + m.group(1))
claims = []
for p in props:
    n = notes.get(p, {})
    th = found.get(p, []) + n.get('extra', [])
    if not th:
        continue
    status = n.get('status') or ('partial' if any(t.endswith('_partial') for t in th) else 'proved')
    claims.append({'property': p, 'status': status, 'theorems': th, 'note': n.get('note', '')})
json.dump({'claims': claims}, open(os.path.join(root, 'MANIFEST.json'), 'w'), indent=1)
print(len(claims), 'claims;', [p for p in props if p not in found])
