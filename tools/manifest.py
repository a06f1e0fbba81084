#!/usr/bin/env python3
"""Write MANIFEST.json, and lean/Verif.lean from the modules present.  Status and notes live in tools/claims.py."""
import json, re, pathlib, sys
root = pathlib.Path(__file__).resolve().parent.parent
sys.path.insert(0, str(root / 'tools'))
from claims import CLAIMS
lean = root / 'lean'
mods = sorted(str(p.relative_to(lean))[:-5].replace('/', '.') for p in (lean / 'Verif').rglob('*.lean'))
(lean / 'Verif.lean').write_text(''.join(f'import {m}\n' for m in mods))
names = set()
for p in (lean / 'Verif').rglob('*.lean'):
    ns = []
    for line in p.read_text().splitlines():
        m = re.match(r'namespace\s+(\S+)', line)
        if m: ns.append(m.group(1))
        m = re.match(r'end\s+(\S+)', line)
        if m and ns and ns[-1] == m.group(1): ns.pop()
        m = re.match(r'(?:@\[[^\]]*\]\s*)?(?:protected\s+)?(?:theorem|lemma)\s+(\S+)', line)
        if m: names.add('.'.join(ns + [m.group(1)]))
ids = [json.loads(l)['id'] for l in open(root / 'properties.jsonl')]
by = {c[0]: c for c in CLAIMS}
out = []
for i in ids:
    if i not in by: continue
    _, status, thms, note = by[i]
    thms = [t if t.startswith('Goosli') else 'Goosli.' + t for t in thms]
    for t in thms:
        if t not in names: print('MISSING THEOREM', t)
    out.append(dict(property=i, status=status, theorems=thms, note=note))
json.dump({'claims': out}, open(root / 'MANIFEST.json', 'w'), indent=1)
cl = {t for c in out for t in c['theorems']}
for n in sorted(names):
    if re.match(r'Goosli\.C\d\d_', n) and n not in cl: print('unlisted', n)
print(len(out), 'claims of', len(ids), 'properties; missing', [i for i in ids if i not in by])
