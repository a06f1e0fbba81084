#!/usr/bin/env python3
"""Which functions of /repo are cited by a definition of the model (by file and lines), and which are not."""
import re, os, glob
root = os.path.dirname(os.path.dirname(os.path.abspath(__file__)))
cites = {}
cur = None
for f in glob.glob(root + '/lean/Verif/**/*.lean', recursive=True):
    s = open(f).read()
    for m in re.finditer(r'([\w/]+\.go):(\d[\d\-, ]*)', s):
        for part in m.group(2).split(','):
            part = part.strip()
            if not part: continue
            a = part.split('-')
            if not a[0]: continue
            lo = int(a[0]); hi = int(a[1]) if len(a) > 1 and a[1] else lo
            cites.setdefault(m.group(1), []).append((lo, hi))
tot = cov = 0
for path in sorted(glob.glob('/repo/**/*.go', recursive=True)):
    rel = os.path.relpath(path, '/repo')
    if rel.endswith('_test.go'): continue
    lines = open(path).read().split('\n')
    i = 0
    while i < len(lines):
        m = re.match(r'func (\([^)]*\) )?(\w+)', lines[i])
        if m:
            j = i
            while j < len(lines) and not lines[j].startswith('}') and not (lines[j].rstrip().endswith('}') and j == i): j += 1
            lo, hi = i + 1, j + 1
            c = [r for k, rs in cites.items() if rel.endswith(k) for r in rs if r[0] <= hi and r[1] >= lo]
            tot += 1
            if c: cov += 1
            else: print('not cited', rel, lo, hi, (m.group(1) or '') + m.group(2))
            i = j
        i += 1
print(cov, 'of', tot)
