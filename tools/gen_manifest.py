#!/usr/bin/env python3
"""Collects the theorems named Cxx_* under lean/Verif/Props into MANIFEST.json. Status/notes are in tools/status.json."""
import re, json, glob, os
root = os.path.dirname(os.path.dirname(os.path.abspath(__file__)))
ths = {}
for f in sorted(glob.glob(root + '/lean/Verif/Props/*.lean')):
    ns = []
    for line in open(f):
        m = re.match(r'namespace\s+(\S+)', line)
        if m: ns.append(m.group(1))
        m = re.match(r'end\s+(\S+)', line)
        if m and ns and ns[-1] == m.group(1): ns.pop()
        m = re.match(r'(?:private\s+)?theorem\s+(C\d\d_\S+)', line)
        if m: ths.setdefault(m.group(1)[:3], []).append('.'.join(ns + [m.group(1)]))
st = json.load(open(root + '/tools/status.json'))
props = [json.loads(l)['id'] for l in open(root + '/properties.jsonl')]
claims = []
for p in props:
    if p in st:
        claims.append({'property': p, 'status': st[p][0], 'theorems': ths.get(p, []), 'note': st[p][1]})
    elif p in ths:
        print('no status for', p)
    else:
        print('nothing yet for', p)
json.dump({'claims': claims}, open(root + '/MANIFEST.json', 'w'), indent=1)
