#!/usr/bin/env python3
"""Regenerates /verif/MANIFEST.json from the theorem names in lean/Verif/Props and tools/notes.json."""
import re, glob, json, os
root = os.path.dirname(os.path.dirname(os.path.abspath(__file__)))
props = [json.loads(l) for l in open(root + '/properties.jsonl')]
thms = {}
for f in sorted(glob.glob(root + '/lean/Verif/Props/*.lean')):
    for m in re.finditer(r'^theorem (C(\d\d\d?)_\w+)', open(f).read(), re.M):
        thms.setdefault('C' + m.group(2), []).append('Syslog5424.' + m.group(1))
notes = json.load(open(root + '/tools/notes.json'))
claims = []
for p in props:
    i = p['id']
    if i not in thms:
        print('no theorem for', i); continue
    ts = thms[i]
    part = any(t.endswith('_partial') or t.endswith('_violated') for t in ts)
    claims.append(dict(property=i, status='partial' if part else 'proved', theorems=ts, note=notes.get(i, '')))
json.dump(dict(claims=claims), open(root + '/MANIFEST.json', 'w'), indent=1)
print(len(claims), 'claims', sum(len(c['theorems']) for c in claims), 'theorems')
