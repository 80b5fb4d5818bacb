#!/usr/bin/env python3
"""Rewrites the table of axioms at the end of DESIGN.md (run after `lake build`)."""
import os, re, subprocess
here = os.path.dirname(os.path.abspath(__file__))
out = subprocess.run(['sh', os.path.join(here, 'axioms.sh')], capture_output=True, text=True).stdout
out = re.sub(r'\n\s+', ' ', out)
by = {}
for l in out.splitlines():
    m = re.match(r"'Gbdt\.(\w+)' (does not depend|depends on axioms: \[(.*)\])", l)
    if not m:
        raise SystemExit('unexpected: ' + l)
    by.setdefault(m.group(3) or 'none', []).append(m.group(1))
mark = '## 8. Axioms per theorem\n'
path = os.path.join(here, '../DESIGN.md')
s = open(path).read()
if mark in s:
    s = s[:s.index(mark)]
s = s.rstrip('\n') + '\n\n' + mark
for k in sorted(by, key=len):
    s += '\n**%s** (%d): %s.\n' % (k, len(by[k]), ', '.join(sorted(by[k])))
open(path, 'w').write(s)
print({k: len(v) for k, v in by.items()})
