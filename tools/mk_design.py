#!/usr/bin/env python3
"""Rewrites the table of results at the end of DESIGN.md from properties.jsonl, MANIFEST.json and the theorem files."""
import glob, json, os, re
root = os.path.dirname(os.path.dirname(os.path.abspath(__file__)))
props = {}
for l in open(root + '/properties.jsonl'):
    if l.strip():
        p = json.loads(l)
        props[p['id']] = p
where = {}
for f in glob.glob(root + '/lean/Verif/Props/*.lean'):
    for m in re.finditer(r'^theorem (C\d\d)', open(f).read(), re.M):
        where.setdefault(m.group(1), set()).add('Props/' + os.path.basename(f)[:-5])
mark = '## Results per property\n'
t = open(root + '/DESIGN.md').read().split(mark)[0].rstrip() + '\n\n' + mark + '\n'
for c in json.load(open(root + '/MANIFEST.json'))['claims']:
    i = c['property']
    fs = ', '.join(f'`{x}`' for x in sorted(where.get(i, [])))
    t += f"* **{i} {props[i]['title']}** - {c['status']}, {len(c['theorems'])} theorems in {fs}. {c['note']}\n"
open(root + '/DESIGN.md', 'w').write(t)
