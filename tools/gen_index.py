#!/usr/bin/env python3
"""Regenerates section 4 of DESIGN.md: the axioms each theorem of MANIFEST.json depends on (as printed by Lean).
Needs a finished `lake build`."""
import json, re, subprocess, os, glob
V = '/verif'
m = json.load(open(V + '/MANIFEST.json'))
props = {json.loads(l)['id']: json.loads(l) for l in open(V + '/properties.jsonl')}
ths = [t for c in m['claims'] for t in c['theorems']]
where = {}
for f in sorted(glob.glob(V + '/lean/Verif/Props/*.lean')):
    for n in re.findall(r'^theorem (C\d\d\d?_\w+\'?)', open(f).read(), re.M):
        where[n] = os.path.basename(f)
os.makedirs('/tmp/axioms', exist_ok=True)
full = lambda t: t if t.startswith('Verif.') else 'Verif.' + t
with open('/tmp/axioms/Ax.lean', 'w') as f:
    f.write('import Verif\n' + ''.join('#print axioms %s\n' % full(t) for t in ths))
out = subprocess.run(['lake', 'env', 'lean', '/tmp/axioms/Ax.lean'], cwd=V + '/lean', capture_output=True, text=True).stdout
out = out.replace('\n ', ' ')
ax = {}
for mm in re.finditer(r"'([^']+'?)' (does not depend on any axioms|depends on axioms: \[([^\]]*)\])", out):
    ax[mm.group(1)] = [] if mm.group(3) is None else [a.strip() for a in mm.group(3).split(',')]
short = {'propext': 'p', 'Classical.choice': 'c', 'Quot.sound': 'q'}
lines = ['## 4. Theorem index and axioms', '',
 'Generated by `tools/gen_index.py` from `#print axioms`. Letters after a theorem name the axioms it depends on:',
 '`p` = `propext`, `c` = `Classical.choice`, `q` = `Quot.sound`; `-` = none. No other axiom occurs.', '']
seen = set()
for c in m['claims']:
    lines.append('* **%s** %s (%s)' % (c['property'], props[c['property']]['title'], c['status']))
    byfile = {}
    for t in c['theorems']:
        a = ax[full(t)]
        seen.update(a)
        byfile.setdefault(where.get(t.split('.')[-1], '?'), []).append('`%s` %s' % (t.split('.')[-1], ''.join(sorted(short[x] for x in a)) or '-'))
    for f, l in byfile.items():
        lines.append('  * `Props/%s`: %s' % (f, ', '.join(l)))
s = open(V + '/DESIGN.md').read()
s = s[:s.index('## 4. Theorem index')] + '\n'.join(lines) + '\n'
open(V + '/DESIGN.md', 'w').write(s)
print(len(ths), 'theorems; axioms:', seen)
