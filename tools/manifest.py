#!/usr/bin/env python3
"""Regenerate MANIFEST.json from the theorems in lean/Verif/Props and tools/status.json."""
import json, re, glob, os
root = os.path.dirname(os.path.dirname(os.path.abspath(__file__)))
thms = {}
for f in sorted(glob.glob(root + '/lean/Verif/Props/*.lean')):
    for m in re.finditer(r'^theorem ((C\d\d+)_\w+)', open(f).read(), re.M):
        thms.setdefault(m.group(2), []).append('Wavemap.' + m.group(1))
status = json.load(open(root + '/tools/status.json'))
claims = []
for line in open(root + '/properties.jsonl'):
    p = json.loads(line)['id']
    if p in status:
        s = status[p]
        if s['status'] != 'not_applicable' and p not in thms:
            raise SystemExit('no theorem for ' + p)
        claims.append({'property': p, 'status': s['status'], 'theorems': thms.get(p, []), 'note': s['note']})
    elif p in thms:
        print('warning: theorems but no status for', p)
json.dump({'claims': claims}, open(root + '/MANIFEST.json', 'w'), indent=1)
print(len(claims), 'claims', sum(len(c['theorems']) for c in claims), 'theorems')
