"""Append a property: addprop.py < JSON with title, statement, quantifier, why, anchors, how, note, module."""
import json, os, re, sys
here = os.path.dirname(os.path.abspath(__file__))
d = json.load(sys.stdin)
f = os.path.join(here, 'gen_properties.py')
s = open(f).read()
i = s.index("out = os.path.join(")
n = len(open(os.path.join(here, '..', 'properties.jsonl')).read().splitlines()) + 1
pid = 'C%02d' % n
s = s[:i] + 'p(%s)\n' % ',\n  '.join(json.dumps(x, ensure_ascii=False) for x in [d['title'], d['statement'], d['quantifier'], d['why']] + d['anchors']) + s[i:]
open(f, 'w').write(s)
for name, key in [('design_how.json', 'how'), ('manifest_notes.json', 'note')]:
    if d.get(key):
        g = os.path.join(here, name)
        j = json.load(open(g))
        j[pid] = d[key]
        json.dump(j, open(g, 'w'), indent=1, ensure_ascii=False)
v = os.path.join(here, '..', 'lean', 'Verif.lean')
t = open(v).read()
m = d.get('module')
if m and 'import %s\n' % m not in t:
    lines = t.split('\n')
    k = max(i for i, l in enumerate(lines) if l.startswith('import Verif.Props'))
    lines.insert(k + 1, 'import %s' % m)
    open(v, 'w').write('\n'.join(lines))
print(pid)
for x in ['gen_properties', 'gen_manifest', 'gen_design']:
    os.system('cd %s/.. && python3 tools/%s.py' % (here, x))
