#!/usr/bin/env python3
"""Which functions of /repo are cited by the model: for every Go function, the model definitions' citations that
fall in its lines."""
import re, os, glob, sys
REPO = '/repo'
cites = {}
for f in glob.glob('/verif/lean/Verif/Model/*.lean') + ['/verif/lean/Verif/Go.lean']:
    t = open(f).read()
    for m in re.finditer(r'([A-Za-z0-9_/.-]*\.go):((?:\d+(?:-\d+)?)(?:, ?\d+(?:-\d+)?)*)', t):
        for r in m.group(2).split(','):
            a, _, b = r.strip().partition('-')
            cites.setdefault(m.group(1), []).append((int(a), int(b or a), os.path.basename(f)))
tot = cov = 0
for root, d, fs in os.walk(REPO):
    for fn in sorted(fs):
        if not fn.endswith('.go') or fn.endswith('_test.go'): continue
        p = os.path.relpath(os.path.join(root, fn), REPO)
        lines = open(os.path.join(root, fn)).read().split('\n')
        i = 0
        while i < len(lines):
            m = re.match(r'func (\([^)]*\) )?(\w+)', lines[i])
            if m:
                j = i
                if not lines[i].rstrip().endswith('}'):
                    while lines[j] != '}': j += 1
                a, b = i + 1, j + 1
                hit = set()
                for k, v in cites.items():
                    if p == k or p.endswith('/' + k) or k.endswith('/' + p):
                        for (x, y, f) in v:
                            if x <= b and y >= a: hit.add(f)
                tot += 1; cov += bool(hit)
                print(f"{p}:{a}-{b}\t{(m.group(1) or '')}{m.group(2)}\t{','.join(sorted(hit)) or '-'}")
                i = j
            i += 1
print(cov, 'of', tot, file=sys.stderr)
