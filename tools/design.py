#!/usr/bin/env python3
"""Rewrite the generated part of DESIGN.md (status table) from properties.jsonl and MANIFEST.json. Run from /verif."""
import json
P = [json.loads(l) for l in open('properties.jsonl')]
M = {c['property']: c for c in json.load(open('MANIFEST.json'))['claims']}
rows = ['| id | property | status | what is missing or not true |', '|----|----------|--------|------|']
for p in P:
    c = M[p['id']]
    rows.append(f"| {p['id']} | {p['title']} | {c['status']} | {c['note'].replace('|', '/')} |")
s = open('DESIGN.md').read()
a, b = '<!-- status begin -->', '<!-- status end -->'
i, j = s.index(a) + len(a), s.index(b)
open('DESIGN.md', 'w').write(s[:i] + '\n' + '\n'.join(rows) + '\n' + s[j:])
