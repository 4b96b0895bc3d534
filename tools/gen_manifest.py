#!/usr/bin/env python3
"""Regenerate lean/Verif.lean (imports) and MANIFEST.json from the sources.

A theorem belongs to property Cnn when its name starts with `Cnn_`.  A property is `partial` when one of its theorems ends in `_partial`
or refutes the full statement (`_fails`), unless overridden in NOTES."""
import json, os, re
R = os.path.dirname(os.path.dirname(os.path.abspath(__file__)))
L = os.path.join(R, 'lean')
mods = []
for d, _, fs in os.walk(os.path.join(L, 'Verif')):
    for f in fs:
        if f.endswith('.lean'):
            mods.append(os.path.relpath(os.path.join(d, f), L)[:-5].replace('/', '.'))
open(os.path.join(L, 'Verif.lean'), 'w').write(''.join('import %s\n' % m for m in sorted(mods)))
notes = json.load(open(os.path.join(R, 'tools', 'notes.json')))
th = {}
for m in sorted(mods):
    if '.Props.' not in m: continue
    ns = []
    for line in open(os.path.join(L, m.replace('.', '/') + '.lean')):
        g = re.match(r'namespace (\S+)', line)
        if g: ns.append(g.group(1))
        g = re.match(r'(?:@\[[^\]]*\] )?theorem (C(\d\d+)_\S+)', line)
        if g: th.setdefault('C' + g.group(2), []).append('.'.join(ns) + '.' + g.group(1))
claims = []
for l in open(os.path.join(R, 'properties.jsonl')):
    i = json.loads(l)['id']
    if i not in th: continue
    part = any(t.endswith('_partial') or t.endswith('_fails') for t in th[i])
    claims.append({'property': i, 'status': 'partial' if part else 'proved', 'theorems': th[i], 'note': notes.get(i, '')})
json.dump({'claims': claims}, open(os.path.join(R, 'MANIFEST.json'), 'w'), indent=1)
print(len(claims), 'claims', sum(c['status'] == 'partial' for c in claims), 'partial', sum(len(c['theorems']) for c in claims), 'theorems')
