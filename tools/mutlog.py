"""Append results of the mutation harness to seeded/LOG.jsonl. Usage: mutlog.py results.jsonl first_line [notes.json]

notes.json maps "definition|edit" to {"tightened": [...], "note": "..."}."""
import json, sys
first = int(sys.argv[2])
notes = json.load(open(sys.argv[3])) if len(sys.argv) > 3 else {}
out = open('/verif/seeded/LOG.jsonl', 'a')
for n, line in enumerate(open(sys.argv[1])):
    if n < first:
        continue
    r = json.loads(line)
    k = notes.get(r['def'] + '|' + r['edit'], {})
    e = {'definition': r['def'], 'file': r['file'], 'edit': r['edit'], 'old': r['old'], 'new': r['new'],
         'claim': r['claim'], 'outcome': 'rejected' if r['rc'] else 'survived',
         'theorems_failed': [':'.join(f) if isinstance(f, list) else f for f in r['fails']],
         'theorems_tightened': k.get('tightened', [])}
    if 'note' in k:
        e['note'] = k['note']
    out.write(json.dumps(e) + '\n')
