#!/usr/bin/env python3
"""Regenerates MANIFEST.json: theorem names are taken from lean/Verif/Props (prefix Cnn_), status and note
from tools/claims.json. Every theorem whose name starts with the property id is listed."""
import json, re, glob, os
root = os.path.join(os.path.dirname(os.path.abspath(__file__)), '..')
names = {}
for f in sorted(glob.glob(root + '/lean/Verif/Props/*.lean')):
    ns = []
    for line in open(f):
        m = re.match(r'^(?:private |protected )?theorem ((C\d\d+)_\S+)', line)
        if m:
            names.setdefault(m.group(2), []).append('PE.' + m.group(1))
claims = json.load(open(root + '/tools/claims.json'))
out = []
for pid in sorted(claims):
    c = claims[pid]
    out.append({'property': pid, 'status': c['status'], 'theorems': names.get(pid, []), 'note': c['note']})
missing = set(names) - set(claims)
if missing: print('theorems without claim entry:', sorted(missing))
json.dump({'claims': out}, open(root + '/MANIFEST.json', 'w'), indent=1)
for c in out:
    if c['status'] != 'not_applicable' and not c['theorems']: print('no theorems for', c['property'])
