"""Lists names declared in more than one module."""
import re
from collections import defaultdict
from pathlib import Path

found = defaultdict(set)
for path in (Path(__file__).resolve().parent.parent / 'lean/Verif').rglob('*.lean'):
    namespaces = []
    for line in path.read_text().split('\n'):
        m = re.match(r'(namespace|section|mutual|end)\b ?(\S*)', line)
        if m:
            if m.group(1) == 'end':
                namespaces and namespaces.pop()
            else:
                namespaces.append(m.group(2) if m.group(1) == 'namespace' else '')
        m = re.match(r'(?:@\[\S+\] )?(?:theorem|def|inductive|structure|abbrev|class) (\S+)', line)
        if m:
            found['.'.join([n for n in namespaces if n] + [m.group(1)])].add(path.stem + '/' + path.parent.name)
for name, places in found.items():
    if len(places) > 1:
        print(name, sorted(places))
# names that open namespaces would make ambiguous
ends = defaultdict(set)
for name in found:
    parts = name.split('.')
    if parts[:2] in (['Paradigm', 'Spec'], ['Paradigm', 'Props']):
        parts.pop(1)
    ends['.'.join(parts)].add(name)
for name, full in ends.items():
    if len(full) > 1:
        print('ambiguous', sorted(full))
