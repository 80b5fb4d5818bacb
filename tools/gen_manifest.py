#!/usr/bin/env python3
"""Writes MANIFEST.json: theorems are collected from the property files by their Cnn_ prefix, status and notes from
the table in manifest_notes.json."""
import json, os, re, glob
root = os.path.join(os.path.dirname(__file__), '..')
thms = {}
for f in sorted(glob.glob(os.path.join(root, 'lean/Verif/Props/*.lean'))):
    for m in re.finditer(r'^theorem (C(\d+)_\w+)', open(f).read(), re.M):
        thms.setdefault('C' + m.group(2), []).append('Gbdt.' + m.group(1))
notes = json.load(open(os.path.join(root, 'tools/manifest_notes.json')))
ids = [json.loads(l)['id'] for l in open(os.path.join(root, 'properties.jsonl'))]
claims = []
for i in ids:
    st, note = notes.get(i, ['not_applicable', 'Not modelled yet.'])
    ts = thms.get(i, [])
    if not ts and st != 'not_applicable':
        print('no theorem for', i); st = 'not_applicable'
    claims.append({'property': i, 'status': st, 'theorems': ts, 'note': note})
json.dump({'claims': claims}, open(os.path.join(root, 'MANIFEST.json'), 'w'), indent=1)
print({s: sum(c['status'] == s for c in claims) for s in ('proved', 'partial', 'not_applicable')})
