#!/usr/bin/env python3
"""DESIGN.md = design_head.md + table of properties + axioms of every theorem of the manifest.
The axioms are read from tools/axioms.txt, made by: tools/gen_design.py --axioms (needs a built project)."""
import json, os, subprocess, sys, re
H = os.path.dirname(os.path.abspath(__file__)); V = os.path.dirname(H)
m = json.load(open(V + '/MANIFEST.json'))['claims']
props = {}
for l in open(V + '/properties.jsonl'):
    p = json.loads(l); props[p['id']] = p
how = json.load(open(H + '/how.json'))
if '--axioms' in sys.argv:
    src = 'import Verif\n' + ''.join(f'#print axioms {t}\n' for c in m for t in c['theorems'])
    open('/tmp/ax.lean', 'w').write(src)
    out = subprocess.run(['lake', 'env', 'lean', '/tmp/ax.lean'], cwd=V + '/lean', capture_output=True, text=True).stdout
    ax = {}
    for x in re.finditer(r"'([^']+)' (?:depends on axioms: \[([^\]]*)\]|does not depend on any axioms)", out):
        ax[x.group(1)] = ', '.join((x.group(2) or '').split(', ')) if x.group(2) else 'none'
    json.dump({k: re.sub(r'\s+', ' ', v) for k, v in ax.items()}, open(H + '/axioms.json', 'w'), indent=0)
ax = json.load(open(H + '/axioms.json'))
s = open(H + '/design_head.md').read()
s += '\n| property | model | how it is proved | status |\n|---|---|---|---|\n'
for c in m:
    i = c['property']; a, b = how[i]
    s += f"| {i} {props[i]['title']} | {a} | {b} | {c['status']}: {c['note'] or 'full.'} |\n"
s += '\nEvery property of the list is expressed in the model; none is left out.\n'
s += '\n## Appendix: the axioms each theorem depends on\n\n'
g = {}
for c in m:
    for t in c['theorems']:
        g.setdefault(ax.get(t, '?'), []).append(t.replace('Syslog5424.', ''))
for k in sorted(g):
    s += f"* {k}: " + ', '.join(g[k]) + '\n'
open(V + '/DESIGN.md', 'w').write(s)
print({k: len(v) for k, v in g.items()})
