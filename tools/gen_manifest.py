#!/usr/bin/env python3
"""Regenerate MANIFEST.json from the theorem names in lean/Verif/Props/*.lean.

Every theorem named Cnn_... belongs to property Cnn. A property is "partial" if
one of its theorems ends in _partial; one without theorems is listed from NOTES
only."""
import glob
import json
import os
import re

ROOT = os.path.dirname(os.path.dirname(os.path.abspath(__file__)))

NOTES = json.load(open(os.path.join(ROOT, 'tools', 'manifest_notes.json')))

theorems = {}
for path in sorted(glob.glob(os.path.join(ROOT, 'lean/Verif/Props/*.lean'))):
    text = open(path).read()
    assert 'namespace CBus.Props' in text, path
    for m in re.finditer(r'^theorem ((C\d+)_\w+)', text, re.M):
        theorems.setdefault(m.group(2), []).append('CBus.Props.' + m.group(1))

ids = [json.loads(l)['id'] for l in open(os.path.join(ROOT, 'properties.jsonl'))]
claims = []
for i in ids:
    ths = theorems.pop(i, [])
    if not ths:
        print('no theorem yet:', i)
        continue
    partial = any(t.endswith('_partial') for t in ths)
    claims.append({'property': i, 'status': 'partial' if partial else 'proved',
                   'theorems': ths, 'note': NOTES.get(i, '')})
    if partial and i not in NOTES:
        print('partial without note:', i)
assert not theorems, theorems
json.dump({'claims': claims}, open(os.path.join(ROOT, 'MANIFEST.json'), 'w'),
          indent=1, ensure_ascii=False)
print(len(claims), 'claims')
