#!/usr/bin/env python3
"""Mutation testing.  usage: mutate.py mutations.py [number of mutations to skip]
Works on a scratch copy of the last commit.  Each mutation is (file, definition, old text, new text, claim broken).
First builds the modules with the theorems of the properties named in the claim; if they all still build, builds everything.
Writes one JSON line per mutation to seeded/LOG.jsonl with the declarations that no longer check (in the modules built).
A mutation that still builds is reported as SURVIVED.  JsonDeep, which takes 10 GB, is left out."""
import glob, json, os, re, subprocess, sys, time
root = os.path.abspath(os.path.join(os.path.dirname(__file__), '..'))
ns = {}
exec(open(sys.argv[1]).read(), ns)
skip = int(sys.argv[2]) if len(sys.argv) > 2 else 0
log = os.path.join(root, 'seeded/LOG.jsonl')
base = f'/root/mut/base{os.getpid()}'
scratch = f'/root/mut/lean{os.getpid()}'
def sh(c): return subprocess.run(c, shell=True, capture_output=True, text=True)
def decl(path, line):
    ls = open(path).read().split('\n')
    for i in range(min(line, len(ls)) - 1, -1, -1):
        m = re.match(r'(?:@\[.*?\] ?)?(?:private |noncomputable )?(theorem|def|example|instance|structure|inductive|abbrev|class)\b ?([\w.]*)', ls[i])
        if m: return (m.group(1), m.group(2) or 'example')
    return ('?', '?')
# the last commit, with the build output of the working copy
sh(f'rm -rf {base}; mkdir -p {base}; cp -a {root}/lean {base}/lean; cd {root} && git archive HEAD lean | tar -x -C {base}; sed -i /JsonDeep/d {base}/lean/Verif.lean')
while os.path.exists('/root/mut/pause'): time.sleep(5)
sh(f'cd {base}/lean && lake build')
where = {}
for path in glob.glob(f'{base}/lean/Verif/Props/*.lean'):
    for m in re.finditer(r'^theorem (C\d+)_', open(path).read(), re.M):
        where.setdefault(m.group(1), set()).add('Verif.Props.' + os.path.basename(path)[:-5])
for (f, d, old, new, claim, *tight) in ns['M'][skip:]:
    sh(f'rm -rf {scratch}; mkdir -p /root/mut; cp -a {base}/lean {scratch}')
    p = f'{scratch}/Verif/{f}'
    s = open(p).read()
    n = s.count(old)
    if n != 1:
        print('BAD PATTERN', n, d, repr(old), flush=True); continue
    open(p, 'w').write(s.replace(old, new))
    targets = sorted(set().union(*[where.get(c, set()) for c in re.findall(r'C\d+', claim)]) - {'Verif.Props.JsonDeep'})
    for t in ([' '.join(targets)] if targets else []) + ['']:
        while os.path.exists('/root/mut/pause'): time.sleep(5)
        r = sh(f'cd {scratch} && lake build {t} 2>&1')
        if r.returncode != 0: break
    errs = []
    for m in re.finditer(r'^error: (Verif/\S+?\.lean):(\d+):\d+', r.stdout, re.M):
        k, nm = decl(f'{scratch}/{m.group(1)}', int(m.group(2)))
        e = nm if k != 'example' else f'example in {m.group(1)}:{m.group(2)}'
        if k in ('def', 'structure', 'inductive') and m.group(1) == f'Verif/{f}': e = 'MODEL ' + e
        if e not in errs: errs.append(e)
    ok = r.returncode == 0
    rec = {'definition': d, 'file': 'lean/Verif/' + f, 'edit': f'{old!r} -> {new!r}', 'claim_broken': claim,
           'theorems_failed': errs, 'theorems_tightened': tight[0] if tight else []}
    print('SURVIVED' if ok else 'killed', d, '|', new[:60].replace('\n', ' '), '|', errs[:6], flush=True)
    if any(e.startswith('MODEL') for e in errs): print('  model does not compile', flush=True); continue
    if not ok and not errs: print('  BUILD FAILED WITHOUT ERRORS IN THE MODEL', r.stdout[-300:], flush=True); continue
    if ok:
        with open('/root/mut/survived.jsonl', 'a') as g: g.write(json.dumps(rec) + '\n')
    else:
        with open(log, 'a') as g: g.write(json.dumps(rec) + '\n')
sh(f'rm -rf {base} {scratch}')
