#!/bin/bash
# Writes AXIOMS.md: the axioms each theorem of MANIFEST.json depends on. Needs a finished `lake build`.
cd "$(dirname "$0")/../lean" || exit 1
t=$(mktemp -d)
python3 - > "$t/a.lean" <<'P'
import json
names = sorted({n for c in json.load(open('../MANIFEST.json'))['claims'] for n in c['theorems']})
print('import Verif')
for n in names: print('#print axioms ' + n)
P
lake env lean "$t/a.lean" > "$t/out" 2>&1
python3 - "$t/out" > ../AXIOMS.md <<'P'
import re, sys, collections
t = re.sub(r'\n\s+', ' ', open(sys.argv[1]).read())
d = collections.defaultdict(list)
for l in t.splitlines():
    m = re.match(r".*?'(\S+)' depends on axioms: \[(.*)\]", l)
    if m: d[', '.join(sorted(m.group(2).split(', ')))].append(m.group(1).replace('PE.', '', 1)); continue
    m = re.match(r".*?'(\S+)' does not depend on any axioms", l)
    if m: d['none'].append(m.group(1).replace('PE.', '', 1)); continue
    print('unexpected:', l)
print('# Axioms the theorems of MANIFEST.json depend on\n\nGenerated by tools/mk_axioms.sh (`#print axioms`).\n')
for k in sorted(d, key=lambda k: (k.count(','), k)):
    print(f'## {k}\n\n{len(d[k])} theorems: ' + ', '.join(f'`{n}`' for n in sorted(d[k])) + '\n')
P
