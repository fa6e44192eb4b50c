"""Check the theorems against wrong programs.

Usage: python3 tools/mutate.py tools/mutants/<file>.py [name ...]

Mutants named in seeded/LOG.jsonl are skipped unless asked for by name; results are appended there.

Every mutant is an edit of a model definition. The modules that depend on
it are concatenated, in dependency order, into one scratch file outside the project with the edit applied, so that Lean goes on after a
failing proof; a theorem counts as failed when its own proof fails or when it rests on one that does.
"""
import json
import os
import re
import runpy
import subprocess
import sys
from concurrent.futures import ThreadPoolExecutor
from pathlib import Path
from threading import Lock

ROOT = Path(__file__).resolve().parent.parent
LEAN = Path(os.environ.get('MUTATE_LEAN', ROOT / 'lean'))
SCRATCH = Path('/tmp/mut')
LOG = ROOT / 'seeded' / 'LOG.jsonl'
LOCK = Lock()
TAIL = '''
open Lean Elab Command in
run_cmd do
  let env ← getEnv
  for (n, c) in env.constants.map₂.toList do
    let value : Array Name := match c.value? (allowOpaque := true) with
      | some v => v.getUsedConstants
      | none => #[]
    let used := (c.type.getUsedConstants ++ value).filter fun u =>
      u == ``sorryAx || (`Paradigm).isPrefixOf u
    let missing := used.filter fun u => (env.constants.find? u).isNone
    let mark := if missing.isEmpty then "" else " sorryAx"
    logInfo m!"DEP {n}{mark} {" ".intercalate (used.toList.map toString)}"
'''


def modules():
    done, order = set(), []

    def visit(name):
        if name in done:
            return
        done.add(name)
        path = LEAN / (name.replace('.', '/') + '.lean')
        text = path.read_text()
        for dep in re.findall(r'^import (Verif\.\S+)', text, re.M):
            visit(dep)
        order.append((name, text))

    for name in re.findall(r'^import (Verif\.\S+)', (LEAN / 'Verif.lean').read_text(), re.M):
        visit(name)
    return order


SNAPSHOT = modules()


def imports(text):
    return re.findall(r'^import (\S+)', text, re.M)


def concatenated(edits):
    """An edit without texts takes in the module as it is."""
    touched = {'Verif.Model.' + edit[0] for edit in edits}
    edits = [edit for edit in edits if len(edit) > 1]
    for name, text in SNAPSHOT:
        if any(x in touched for x in imports(text)):
            touched.add(name)
    parts, others = [], set()
    left = list(edits)
    for name, text in SNAPSHOT:
        if name not in touched:
            continue
        for edit in list(left):
            if name == 'Verif.Model.' + edit[0]:
                assert text.count(edit[1]) == 1, (name, edit[1], text.count(edit[1]))
                text = text.replace(edit[1], edit[2])
                left.remove(edit)
        others |= {x for x in imports(text) if x not in touched}
        text = re.sub(r'^import \S+\n', '', text, flags=re.M)
        parts.append('section\n' + text + '\nend\n')
    assert not left, left
    head = 'import Lean\n' + ''.join(f'import {x}\n' for x in sorted(others))
    return head + '\n'.join(parts) + TAIL


def run(name, edits):
    path = SCRATCH / (name + '.lean')
    source = concatenated(edits)
    path.write_text(source)
    out = subprocess.run(['lake', 'env', 'lean', '-DmaxErrors=100000', str(path)], cwd=LEAN, capture_output=True,
                         text=True).stdout
    (SCRATCH / (name + '.out')).write_text(out)
    lines = source.split('\n')
    direct = []
    for m in re.finditer(r'^\S+?:(\d+):\d+: error', out, re.M):
        i = int(m.group(1)) - 1
        while i >= 0:
            d = re.match(r'(?:private |protected )?(?:theorem|def|inductive|structure|example|abbrev|instance)'
                         r'(?: (\S+))?', lines[i])
            if d:
                break
            i -= 1
        label = (d.group(1) if d and d.group(1) and not lines[i].startswith('example')
                 else 'example')
        if label not in direct:
            direct.append(label)
    uses = {}
    for m in re.finditer(r'^.*?\bDEP ([^\n]*)', out, re.M):
        name, *used = m.group(1).split()
        uses[name] = set(used)
    short = {'.' + d for d in direct if d != 'example'}
    broken = {n for n in uses if 'sorryAx' in uses[n] or any(n.endswith(d) for d in short)}
    broken |= {u for used in uses.values() for u in used if any(u.endswith(d) for d in short)}
    while True:
        more = {n for n in uses if n not in broken and not broken.isdisjoint(uses[n])}
        if not more:
            break
        broken |= more
    props = sorted({b.split('.')[-1] for b in broken
                    if re.match(r'Paradigm\.Props\.C\d\d', b)})
    return direct, props


def log(m, direct, props, missing):
    entry = {
        'name': m['name'],
        'definition': m['definition'],
        'edit': m['edit'],
        'claim': m['claim'],
        'failed': props,
        'failed_lemmas': [d for d in direct if d != 'example' and d not in props],
        'examples_failed': 'example' in direct,
        'expected_but_passed': missing,
        'tightened': [],
        'note': m.get('note', ''),
    }
    with LOCK, open(LOG, 'a') as f:
        f.write(json.dumps(entry, ensure_ascii=False) + '\n')


def main():
    SCRATCH.mkdir(exist_ok=True)
    mutants = runpy.run_path(sys.argv[1])['MUTANTS']
    only = sys.argv[2:]
    if only[:1] == ['base']:
        # what fails without any edit, since names of files that do not import each other meet
        for module in only[1:]:
            print(module, run('base_' + module, [(module,)]), flush=True)
        return
    if only:
        mutants = [m for m in mutants if m['name'] in only]
    else:
        done = {json.loads(line)['name'] for line in LOG.read_text().splitlines()}
        mutants = [m for m in mutants if m['name'] not in done]

    def work(m):
        try:
            direct, props = run(m['name'], m['edits'])
        except AssertionError as e:
            print(m['name'], 'BAD EDIT', e, flush=True)
            return
        missing = [t for t in m.get('expect', [])
                   if not any(p == t or p.startswith(t) for p in props)]
        print(m['name'], 'SURVIVED' if not props and not direct else 'killed',
              ('NOT-FAILED ' + ' '.join(missing)) if missing else '',
              '| direct:', ' '.join(direct[:12]), '| props:', ' '.join(props), flush=True)
        log(m, direct, props, missing)

    with ThreadPoolExecutor(2) as pool:
        list(pool.map(work, mutants))


if __name__ == "__main__":
    main()
