#!/usr/bin/env python3
"""Write AXIOMS.md: the axioms each theorem of MANIFEST.json depends on (from `#print axioms`). Run from /verif after `lake build`."""
import json, os, re, subprocess, tempfile
names = [t for c in json.load(open('MANIFEST.json'))['claims'] for t in c['theorems']]
with tempfile.NamedTemporaryFile('w', suffix='.lean', delete=False) as f:
    f.write('import Verif\n' + ''.join(f'#print axioms {n}\n' for n in names))
out = subprocess.run(['lake', 'env', 'lean', f.name], cwd='lean', capture_output=True, text=True).stdout
os.unlink(f.name)
deps = {}
for m in re.finditer(r"'([^']+)' (?:depends on axioms: \[([^\]]*)\]|does not depend on any axioms)", out):
    deps[m.group(1)] = tuple(sorted(x.strip() for x in (m.group(2) or '').split(',') if x.strip()))
missing = [n for n in names if n not in deps]
assert not missing, missing
groups = {}
for n in names:
    groups.setdefault(deps[n], []).append(n.replace('Wavemap.', ''))
with open('AXIOMS.md', 'w') as g:
    g.write('# Axioms of each theorem\n\nOutput of `#print axioms`, written by `tools/axioms.py`. All names are in the namespace `Wavemap`.\n')
    for k in sorted(groups, key=lambda k: (len(k), k)):
        g.write(f'\n## {", ".join("`"+x+"`" for x in k) if k else "none"} ({len(groups[k])} theorems)\n\n')
        g.write(', '.join(groups[k]) + '\n')
for k in groups: print(k, len(groups[k]))
