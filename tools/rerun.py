#!/usr/bin/env python3
"""Applies recorded edits that no theorem noticed to the present model again.
usage: rerun.py in.jsonl out.jsonl"""
import json, os, sys
from automutate import DST, sync, build, enclosing
sync()
out = open(sys.argv[2], 'a')
for rec in map(json.loads, open(sys.argv[1])):
    if rec['failed']: continue
    f = rec['definition'].split(':')[0]; p = f'{DST}/{f}'; orig = open(p).read(); lines = orig.split('\n')
    at = [i for i, l in enumerate(lines) if l.strip() == rec['old']]
    if not at: print('gone', rec['definition'], rec['old'], flush=True); continue
    i = min(at, key=lambda i: abs(i + 1 - rec['line']))
    lines[i] = lines[i].replace(rec['old'], rec['new'])
    open(p, 'w').write('\n'.join(lines))
    r = build()
    rec['failed'] = [] if r is None else [os.path.basename(r[0]) + ':' + enclosing(open(f'{DST}/{r[0]}').read().split('\n'), r[1])] if r[0] != '?' else ['?']
    out.write(json.dumps(rec) + '\n'); out.flush()
    print('SURVIVED' if not rec['failed'] else 'killed', rec['definition'], rec['old'], '=>', rec['new'], rec['failed'], flush=True)
    open(p, 'w').write(orig)
