"""Systematic small edits of the model definitions, run like the mutants of tools/mutate.py.

Usage: python3 tools/automutate.py <seed> <count> [model ...]

Edits that do not change what a definition says or that do not type check are not recorded. Survivors
(no property fails) are printed.
"""
import importlib.util
import json
import random
import re
import sys
from pathlib import Path

ROOT = Path(__file__).resolve().parent.parent
argv, sys.argv = sys.argv, ['mutate.py', str(ROOT / 'tools/mutants/none.py')]
spec = importlib.util.spec_from_file_location('mutate', ROOT / 'tools/mutate.py')
mutate = importlib.util.module_from_spec(spec)
spec.loader.exec_module(mutate)
sys.argv = argv

RULES = [
    (r' && ', ' || '), (r' \|\| ', ' && '), (r' == ', ' != '), (r' != ', ' == '),
    (r' ∧ ', ' ∨ '), (r' ∨ ', ' ∧ '), (r' < ', ' ≤ '), (r' ≤ ', ' < '),
    (r'\btrue\b', 'false'), (r'\bfalse\b', 'true'), (r'\.isSome\b', '.isNone'), (r'\.isNone\b', '.isSome'),
    (r'\.isEmpty\b', '.isEmpty.not'), (r'\.dropLast\b', ''), (r'\.reverse\b', ''), (r'\.drop 1\b', ''),
    (r'\.error \.(\w+)', '.error .overflowError'), (r' \+\+ \[(\w|\.)+\]', ''), (r'(\w|\.)+ \+\+ ', ''),
    (r'\.any\b', '.all'), (r'\.all\b', '.any'), (r'!', ''), (r'if ([^=;]*?) then', r'if ¬ (\1) then'),
    (r'"(\w+)"', r'"\1_"'), (r'\b0\b', '1'), (r' \+ 1\b', ' + 2'), (r'\.1\b', '.2'), (r'\.2\b', '.1'),
    (r'\.(append|filter) ', '.filterX '), (r'\.ok none', '.error .overflowError'), (r'\bsome \(?(\w+)\)?', 'none'),
    (r'\.positionalOnly\b', '.positionalOrKeyword'), (r'\.keywordOnly\b', '.positionalOrKeyword'),
    (r'\.variadicKeyword\b', '.variadicPositional'), (r'\.filterMap\b', '.filterMapX'),
    (r' :: (\w+)\b', r' :: []'), (r'\.head\?', '.getLast?'), (r'\.getLast\?', '.head?'),
]


def candidates(model):
    path = mutate.LEAN / 'Verif/Model' / (model + '.lean')
    lines = path.read_text().split('\n')
    result, definition, comment = [], None, False
    for i, line in enumerate(lines):
        if line.startswith('/-'):
            comment = True
        if comment:
            if '-/' in line:
                comment = False
            continue
        d = re.match(r'(?:private )?(def|theorem|instance|inductive|structure|class|abbrev)(?: (\S+))?', line)
        if d:
            definition = d.group(2) if d.group(1) == 'def' else None
        if definition is None or line.startswith(('termination_by', 'decreasing_by', 'open ', 'namespace', 'end')):
            continue
        start = line.index(':=') if d and ':=' in line else (len(line) if d else 0)
        for pattern, to in RULES:
            for m in re.finditer(pattern, line):
                if m.start() < start:
                    continue
                if re.search(r'\|[^|]*=>', line[m.start():]) and pattern not in (r'\b0\b',):
                    # inside of a pattern
                    continue
                new = line[:m.start()] + m.expand(to) + line[m.end():]
                if new != line:
                    result.append((model, definition, i, line, new))
    return lines, result


def main():
    seed, count = int(sys.argv[1]), int(sys.argv[2])
    models = sys.argv[3:] or [p.stem for p in sorted((mutate.LEAN / 'Verif/Model').glob('*.lean'))]
    done = {json.loads(line)['name'] for line in mutate.LOG.read_text().splitlines()}
    todo = []
    texts = {}
    for model in models:
        lines, found = candidates(model)
        texts[model] = lines
        todo += found
    print(len(todo), 'edits')
    random.Random(seed).shuffle(todo)
    mutate.SCRATCH.mkdir(exist_ok=True)
    for model, definition, i, line, new in todo[:count]:
        name = f'auto_{model}_{definition}_{abs(hash((line, new))) % 100000 if 0 else i}_{sum(map(ord, new)) % 9973}'
        if name in done:
            continue
        lines = texts[model]
        k = 0
        while True:
            old = '\n'.join(lines[max(0, i - k):i + 1 + k])
            if '\n'.join(lines).count(old) == 1:
                break
            k += 1
        edited = '\n'.join(lines[max(0, i - k):i] + [new] + lines[i + 1:i + 1 + k])
        path = mutate.SCRATCH / 'check.lean'
        path.write_text('\n'.join(lines).replace(old, edited))
        if mutate.subprocess.run(['lake', 'env', 'lean', str(path)], cwd=mutate.LEAN,
                                 capture_output=True).returncode:
            continue
        direct, props = mutate.run(name, [(model, old, edited)])
        if definition in direct or any(d in direct for d in definition.split('.')):
            continue
        m = dict(name=name, definition=definition, edit=f'{line.strip()}  ~>  {new.strip()}',
                 claim='whatever is claimed about this definition')
        print(name, 'SURVIVED' if not props else 'killed', '|', line.strip(), '~>', new.strip(), '|',
              ' '.join(direct[:6]), '|', len(props), flush=True)
        mutate.log(m, direct, props, [])


main()
