#!/usr/bin/env python3
"""Regenerate MANIFEST.json from the theorem names in lean/Verif/Props and tools/notes.json."""
import json, re, glob, os
root = os.path.dirname(os.path.dirname(os.path.abspath(__file__)))
notes = json.load(open(root + '/tools/notes.json'))
thms = {}
for f in sorted(glob.glob(root + '/lean/Verif/Props/*.lean')):
    for m in re.finditer(r'^theorem (C\d+)(_\w+)', open(f).read(), re.M):
        thms.setdefault(m.group(1), []).append('LibSub.' + m.group(1) + m.group(2))
claims = []
for line in open(root + '/properties.jsonl'):
    p = json.loads(line)['id']
    if p not in thms:
        continue
    n = notes.get(p, {})
    claims.append({'property': p, 'status': n.get('status', 'proved'), 'theorems': thms[p], 'note': n.get('note', '')})
json.dump({'claims': claims}, open(root + '/MANIFEST.json', 'w'), indent=1, ensure_ascii=False)
print(len(claims), 'claims', sum(len(c['theorems']) for c in claims), 'theorems')
