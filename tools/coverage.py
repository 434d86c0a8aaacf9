#!/usr/bin/env python3
"""Which functions of /repo/src/pe_lib are cited by the model, and by which definitions.

A function counts as modelled if its lines overlap with a citation `file.cpp:a-b` in a comment of lean/Verif/Model.
Usage: coverage.py [-u]   (-u: print only functions that are not cited)
       coverage.py -m     (writes COVERAGE.md)
"""
import re, glob, os, sys, collections
ROOT = os.path.dirname(os.path.dirname(os.path.abspath(__file__)))
SRC = '/repo/src/pe_lib'
cited = collections.defaultdict(lambda: collections.defaultdict(list))
CITE = re.compile(r'(\w+\.(?:cpp|h)):\s*((?:\d+(?:-\d+)?(?:,\s*|\s+and\s+)?)+)')
def scan(text, who):
    for m in CITE.finditer(text):
        for r in re.finditer(r'(\d+)(?:-(\d+))?', m.group(2)):
            a = int(r.group(1)); b = int(r.group(2) or a)
            for x in range(a, b + 1): cited[m.group(1)][x].append(who)
for f in sorted(glob.glob(ROOT + '/lean/Verif/Model/*.lean')):
    t = open(f).read(); mod = os.path.basename(f)[:-5]; pos = 0
    for m in re.finditer(r'/-.*?-/', t, re.S):
        nxt = re.match(r'\s*(?:@\[[^\]]*\]\s*)?(?:private |protected |noncomputable |partial )*(?:def|structure|inductive|abbrev|instance|class)\s+([^\s:({\[]+)', t[m.end():])
        scan(m.group(0), f'{mod}.{nxt.group(1)}' if nxt else mod)
    scan(re.sub(r'/-.*?-/', '', t, flags=re.S), mod)
tot = cov = 0; out = []
for f in sorted(glob.glob(SRC + '/*.cpp')):
    lines = open(f, errors='replace').read().split('\n')
    name = os.path.basename(f)
    i = 0; rows = []
    while i < len(lines):
        l = lines[i]
        if re.match(r'^(template|[A-Za-z_].*\()', l) and not l.startswith(('namespace', '#', 'using', 'typedef', '//')):
            j = i
            while j < len(lines) and not lines[j].startswith('{') and not lines[j].rstrip().endswith((';', '{}')): j += 1
            if j < len(lines) and lines[j].startswith('{'):
                k = j
                while k < len(lines) and not lines[k].startswith('}'): k += 1
                rows.append((i + 1, k + 1, ' '.join(x.strip() for x in lines[i:j])))
                i = k + 1; continue
            if j < len(lines) and lines[j].rstrip().endswith('{}'):
                rows.append((i + 1, j + 1, ' '.join(x.strip() for x in lines[i:j + 1])))
            i = j + 1; continue
        i += 1
    out.append(f'\n## {name}\n\n| lines | function | model |\n|---|---|---|')
    for a, b, sig in rows:
        who = list(dict.fromkeys(w for x in range(a, b + 1) for w in cited[name][x]))
        tot += 1; cov += bool(who)
        s = re.sub(r'\(.*', '', sig.replace('template<typename PEClassType> ', '')).split(' ')[-1]
        out.append(f"| {a}-{b} | `{s}` | {', '.join(f'`{w}`' for w in who[:6]) or 'not modelled'}{', ...' if len(who) > 6 else ''} |")
        if '-m' not in sys.argv and not (who and '-u' in sys.argv): print(f"{name}:{a}-{b}\t{'modelled' if who else '-'}\t{sig[:110]}")
if '-m' in sys.argv:
    open(ROOT + '/COVERAGE.md', 'w').write(f'''# Functions of /repo/src/pe_lib and the definitions of the model

Generated by tools/coverage.py -m from the citations in lean/Verif/Model. {cov} of {tot} functions are modelled. Files that
contain only declarations, constants and types (headers) are not listed; the layout of the structures they declare is part of the
definitions that read and write them.
''' + '\n'.join(out) + '\n')
print(f'{cov} of {tot} functions cited', file=sys.stderr)
