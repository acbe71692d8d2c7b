#!/usr/bin/env python3
"""Writes /verif/DESIGN.md: tools/design_head.md, then a table with one row per
property from properties.jsonl, MANIFEST.json and tools/design_how.json."""
import json, os
root = os.path.dirname(os.path.dirname(os.path.abspath(__file__)))
props = [json.loads(l) for l in open(f'{root}/properties.jsonl')]
man = {c['property']: c for c in json.load(open(f'{root}/MANIFEST.json'))['claims']}
how = json.load(open(f'{root}/tools/design_how.json'))
out = [open(f'{root}/tools/design_head.md').read().rstrip('\n'), '',
       '| id | title | status | how it is proved | theorems |', '|---|---|---|---|---|']
for q in props:
    c = man[q['id']]
    names = ', '.join('`' + t.split('.')[-1] + '`' for t in c['theorems'])
    out.append(f"| {q['id']} | {q['title']} | {c['status']} | {how[q['id']]} | {names} |")
open(f'{root}/DESIGN.md', 'w').write('\n'.join(out) + '\n')
