#!/usr/bin/env python3
"""Seeded bugs: apply each edit of a batch file to a scratch copy, rebuild, report which theorems fail.
usage: mutate.py batch.py   (batch.py defines MUTS = [(id, file, old, new, claim broken, note)])
Results go to /tmp/mut_results.jsonl; reviewed lines are appended to seeded/LOG.jsonl by hand or with log_append.py."""
import json, os, re, subprocess, sys, shutil, runpy
SRC = '/verif/lean'; DST = '/tmp/mut/lean'
def sync():
    os.makedirs(DST, exist_ok=True)
    subprocess.run(['rsync', '-a', '--delete', SRC + '/', DST + '/'] if shutil.which('rsync') else
                   ['bash', '-c', f'rm -rf {DST} && cp -a {SRC} {DST}'], check=True)
def enclosing(path, line):
    lines = open(path).read().split('\n')
    for i in range(min(line, len(lines)) - 1, -1, -1):
        m = re.match(r'\s*(?:@\[[^\]]*\]\s*)?(?:private |protected |noncomputable )*(?:theorem|lemma|def|instance|example)\s*([^\s:({\[]*)', lines[i])
        if m: return m.group(1) or 'example'
    return '?'
def main():
    muts = runpy.run_path(sys.argv[1])['MUTS']
    out = open('/tmp/mut_results.jsonl', 'a')
    sync()
    for (mid, f, old, new, claim, note) in muts:
        p = f'{DST}/{f}'
        orig = open(p).read()
        n = orig.count(old)
        if n != 1:
            print(mid, 'PATTERN COUNT', n); continue
        open(p, 'w').write(orig.replace(old, new))
        r = subprocess.run(['lake', 'build'], cwd=DST, capture_output=True, text=True)
        txt = r.stdout + r.stderr
        failed = []
        for m in re.finditer(r'error: (Verif/[^:]*):(\d+):\d+', txt):
            t = os.path.basename(m.group(1)) + ':' + enclosing(f'{DST}/{m.group(1)}', int(m.group(2)))
            if t not in failed: failed.append(t)
        bad = [m for m in re.findall(r'^- (Verif\S*)', txt, re.M)]
        rec = dict(id=mid, definition=f + ':' + enclosing(f'{SRC}/{f}', orig[:orig.index(old)].count('\n') + 1), edit=f'{old!r} -> {new!r}', claim=claim, note=note, failed=failed, modules=bad, ok=(r.returncode == 0))
        out.write(json.dumps(rec) + '\n'); out.flush()
        print(mid, claim, 'SURVIVED' if r.returncode == 0 else failed, flush=True)
        open(p, 'w').write(orig)
main()
