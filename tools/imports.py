#!/usr/bin/env python3
"""Rewrites lean/Verif.lean so that it imports every module (existing order kept)."""
import glob, os
root = os.path.dirname(os.path.dirname(os.path.abspath(__file__)))
path = os.path.join(root, 'lean', 'Verif.lean')
lines = [l for l in open(path).read().split('\n') if l]
order = ['Model', 'Spec', 'Lemmas', 'Props']
for d in order:
    for f in sorted(glob.glob(os.path.join(root, 'lean', 'Verif', d, '*.lean'))):
        l = 'import Verif.%s.%s' % (d, os.path.basename(f)[:-5])
        if l not in lines:
            lines.append(l)
lines.sort(key=lambda l: order.index(l.split('.')[1]))
open(path, 'w').write('\n'.join(lines) + '\n')
