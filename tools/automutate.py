#!/usr/bin/env python3
"""Random one-token edits of the model in a scratch copy; stops each build at the first theorem that fails.
usage: automutate.py seed per_definition [file ...]   Results: /tmp/auto_mut.jsonl (survivors have failed = [])."""
import json, os, re, subprocess, sys, random, signal
SRC = '/verif/lean'; DST = '/tmp/am/lean'
OPS = [(r'<\?', '≤?'), (r'≤\?', '<?'), (r' \+ ', ' - '), (r' - ', ' + '), (r'\bfmin\b', 'fmax'), (r'\bfmax\b', 'fmin'),
       (r'\.x\b', '.y'), (r'\.y\b', '.z'), (r'\.z\b', '.x'), (r'\.p1\b', '.p2'), (r'\.p2\b', '.p1'), (r'\.p3\b', '.p1'),
       (r'\.1\b(?!\.)', '.2'), (r'\.2\b(?!\.)', '.1'), (r'\btrue\b', 'false'), (r'\bfalse\b', 'true'), (r'!\(', '('), (r'!almostZero', 'almostZero'),
       (r'lit (\d+) ', lambda m: f'lit {int(m.group(1)) + 1} '), (r' && ', ' || '), (r' \|\| ', ' && '), (r'\bcos\b', 'sin'), (r'\bsin\b', 'cos'),
       (r' \* ', ' + '), (r' / ', ' * '), (r' \+ 1\b', ' + 2'), (r' - 1\b', ' - 0'), (r'\.takeWhile', '.dropWhile'), (r'\baxisX\b', 'axisY'),
       (r'\baxisZ\b', 'axisX'), (r'\baxisY\b', 'axisX'), (r'\bceil\b', 'floor'), (r'\bfloor\b', 'ceil'), (r' ++ ', None), (r'\.reverse\b', ''),
       (r' ≠ ', ' = '), (r' = 0\b', ' = 1'), (r' < ', ' ≤ '), (r' ≤ ', ' < '), (r'\bup\b', 'down'), (r'\bdown\b', 'up'), (r'\bhead\?', 'getLast?'),
       (r'\.dropLast', ''), (r'-tiltX', 'tiltX'), (r'goLast', 'goAt0')]
def sync():
    os.makedirs(DST, exist_ok=True)
    subprocess.run(['bash', '-c', f'rm -rf {DST} && cp -a {SRC} {DST}'], check=True)
    # examples evaluated by the kernel are tests: they must not be what notices an edit
    for root, _, names in os.walk(DST + '/Verif'):
        for n in names:
            q = os.path.join(root, n)
            if not n.endswith('.lean'): continue
            text = open(q).read(); lines = text.split('\n')
            for i, l in enumerate(lines):
                if 'decide +kernel' in l and enclosing(lines, i + 1) == 'example': lines[i] = l.replace('decide +kernel', 'sorry')
            if '\n'.join(lines) != text: open(q, 'w').write('\n'.join(lines))
def enclosing(lines, line):
    for i in range(min(line, len(lines)) - 1, -1, -1):
        m = re.match(r'\s*(?:@\[[^\]]*\]\s*)?(?:private |protected |noncomputable |local )*(?:theorem|lemma|def|instance|example)\s*([^\s:({\[]*)', lines[i])
        if m: return m.group(1) or 'example'
    return '?'
def sites(text):
    """(definition, start, end, new) of every possible edit outside comments"""
    lines = text.split('\n'); pos = 0; incomment = False; out = []; isdef = False
    for n, l in enumerate(lines):
        s = l
        if s.lstrip().startswith('/-'): incomment = True
        if re.match(r'\s*(?:private |noncomputable )*def ', s): isdef = True
        elif re.match(r'(structure|inductive|class|theorem|instance|namespace|end|variable|import|open|section)', s): isdef = False
        if isdef and not incomment:
            code = s.split('--')[0]
            start = code.index(':=') + 2 if re.match(r'\s*(?:private |noncomputable )*def ', code) and ':=' in code else (len(code) if re.match(r'\s*(?:private |noncomputable )*def ', code) else 0)
            for pat, rep in OPS:
                if rep is None: continue
                for m in re.finditer(pat, code):
                    if m.start() < start: continue
                    new = rep(m) if callable(rep) else rep
                    if new == 'goAt0': continue
                    out.append((enclosing(lines, n + 1), pos + m.start(), pos + m.end(), new, n + 1))
        if '-/' in s: incomment = False
        pos += len(l) + 1
    return out
def build():
    env = dict(os.environ, LEAN_NUM_THREADS='3')
    p = subprocess.Popen(['nice', '-n', '10', 'lake', 'build'], cwd=DST, stdout=subprocess.PIPE, stderr=subprocess.STDOUT, text=True, env=env, preexec_fn=os.setsid)
    first = None
    for line in p.stdout:
        m = re.match(r'error: (Verif/[^:]*):(\d+):\d+', line)
        if m: first = (m.group(1), int(m.group(2))); break
    if first:
        try: os.killpg(p.pid, signal.SIGKILL)
        except ProcessLookupError: pass
        p.wait(); return first
    p.wait()
    return None if p.returncode == 0 else ('?', 0)
def main():
    rnd = random.Random(int(sys.argv[1])); per = int(sys.argv[2])
    files = sys.argv[3:] or ['Verif/Model/' + f for f in sorted(os.listdir(SRC + '/Verif/Model')) if f not in ('XR.lean', 'Num.lean')]
    out = open('/tmp/auto_mut.jsonl', 'a'); sync()
    for f in files:
        p = f'{DST}/{f}'; orig = open(p).read(); bydef = {}
        for s in sites(orig): bydef.setdefault(s[0], []).append(s)
        for d, ss in bydef.items():
            rnd.shuffle(ss); done = 0
            for (d, a, b, new, line) in ss:
                if done >= per: break
                open(p, 'w').write(orig[:a] + new + orig[b:])
                r = build()
                if r and '/Model/' in r[0]: continue
                done += 1
                fail = [] if r is None else [os.path.basename(r[0]) + ':' + enclosing(open(f'{DST}/{r[0]}').read().split('\n'), r[1])] if r[0] != '?' else ['?']
                src = orig.split('\n')[line - 1].strip(); col = a - (orig[:a].rfind('\n') + 1)
                mut = (orig[:a] + new + orig[b:]).split('\n')[line - 1].strip()
                rec = dict(definition=f + ':' + d, line=line, old=src, new=mut, failed=fail)
                out.write(json.dumps(rec) + '\n'); out.flush()
                print('SURVIVED' if not fail else 'killed', f, d, '|', src, '=>', mut, fail, flush=True)
        open(p, 'w').write(orig)
if __name__ == '__main__': main()
