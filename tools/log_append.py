#!/usr/bin/env python3
"""append reviewed mutation results to seeded/LOG.jsonl
usage: log_append.py prefix [id=tightened theorem,... [: remark]]"""
import json, sys, os
pre = sys.argv[1]
extra = {}
for a in sys.argv[2:]:
    k, v = a.split('=', 1); extra[k] = v
seen = set()
if os.path.exists('/verif/seeded/LOG.jsonl'):
    for l in open('/verif/seeded/LOG.jsonl'):
        seen.add(json.loads(l)['id'])
out = open('/verif/seeded/LOG.jsonl', 'a')
for l in open('/tmp/mut_results.jsonl'):
    d = json.loads(l)
    if not d['id'].startswith(pre) or d['id'] in seen: continue
    t, _, r = extra.get(d['id'], '').partition(':')
    rec = dict(id=d['id'], definition=d['definition'], edit=d['edit'], bug=d['note'], claim_broken=d['claim'],
               failed=d['failed'], survived=d['ok'], tightened=[x for x in t.split(',') if x])
    if r: rec['remark'] = r
    out.write(json.dumps(rec, ensure_ascii=False) + '\n'); seen.add(d['id'])
