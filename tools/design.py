#!/usr/bin/env python3
"""Writes DESIGN.md; needs an up-to-date build."""
import collections
import glob
import json
import os
import re
import subprocess
import tempfile

HERE = os.path.dirname(os.path.abspath(__file__))
ROOT = os.path.dirname(HERE)
plans = {}


def plan(ids, model, proof):
    for i in ids.split():
        assert i not in plans, i
        plans[i] = model, proof


exec(open(os.path.join(HERE, 'plans.py')).read())
manifest = {c['property']: c for c in json.load(open(os.path.join(ROOT, 'MANIFEST.json')))['claims']}
props = [json.loads(l) for l in open(os.path.join(ROOT, 'properties.jsonl'))]
theorems = sorted({t for c in manifest.values() for t in c['theorems']})

with tempfile.NamedTemporaryFile('w', suffix='.lean', delete=False) as f:
    f.write('import Verif\n' + ''.join(f'#print axioms {t}\n' for t in theorems))
out = subprocess.run(['lake', 'env', 'lean', f.name], cwd=os.path.join(ROOT, 'lean'),
                     capture_output=True, text=True).stdout
os.unlink(f.name)
axioms = {}
for m in re.finditer(r"'(\S+)' (?:does not depend on any axioms|depends on axioms: \[([^\]]*)\])", out):
    axioms[m.group(1)] = ', '.join(sorted(a.strip() for a in (m.group(2) or '').split(',') if a.strip()))
assert set(axioms) == set(theorems), set(theorems) ^ set(axioms)

where = {}
for path in glob.glob(os.path.join(ROOT, 'lean/Verif/Props/*.lean')):
    for m in re.finditer(r'^theorem (C\d\d\w*)', open(path).read(), re.M):
        where[m.group(1)] = os.path.basename(path)

lines = [open(os.path.join(HERE, 'design_head.md')).read().rstrip('\n'), '', '## Properties', '']
for p in props:
    c = manifest[p['id']]
    model, proof = plans[p['id']]
    names = [t.rsplit('.', 1)[1] for t in c['theorems']]
    lines += [f"### {p['id']} {p['title']}", '',
              f"{p['statement']}", '',
              f"* Status: {c['status']}." + (f" {c['note'][0].upper() + c['note'][1:]}." if c['note'] else ''),
              f"* Model: {model}. Proof: {proof}.",
              f"* Theorems ({', '.join(sorted({where[n] for n in names}))}): " + ', '.join(f'`{n}`' for n in names) + '.', '']
lines += ['## Axioms', '']
groups = collections.defaultdict(list)
for t in theorems:
    groups[axioms[t]].append(t.rsplit('.', 1)[1])
for a in sorted(groups, key=lambda a: (a.count(','), a)):
    lines += [f"* {a or 'none'}: " + ', '.join(f'`{t}`' for t in groups[a]) + '.']
lines += ['', '## Code', '',
          'Functions of `/repo/paradigm` and the model definitions whose comments cite their lines ("-": not',
          'modelled, see above; several lines of one name are overloads or registered implementations).', '',
          '| lines | function | model |', '|---|---|---|']
import sys
sys.path.insert(0, HERE)
import coverage
cites = coverage.citations()
for file, found in coverage.functions():
    for first, last, name in found:
        by = sorted({n for a, b, n in cites.get(file, []) if a <= last and b >= first and '(header)' not in n})
        head = any(a <= last and b >= first for a, b, n in cites.get(file, []))
        lines.append(f"| `{file}:{first}-{last}` | `{name}` | {', '.join(f'`{n}`' for n in by) or ('trusted' if head else '-')} |")
open(os.path.join(ROOT, 'DESIGN.md'), 'w').write('\n'.join(lines) + '\n')
print(len(lines))
