"""Compares the lines cited for a named function with where it is."""
import glob, os, re
import coverage
HERE = os.path.dirname(os.path.abspath(__file__))
funcs = {}
for file, found in coverage.functions():
    for a, b, n in found:
        funcs.setdefault(n.split('.')[-1], []).append((file, a, b))
for path in sorted(glob.glob(os.path.join(HERE, '../lean/Verif/*/*.lean'))):
    text = open(path).read()
    for m in re.finditer(r'`([\w.]+)`,?\s+\(?`(?:/repo/paradigm/)?([\w/]+\.py)?:([\d,\-\s]*\d)`', text):
        name, file, ranges = m.groups()
        name = name.split('.')[-1]
        cands = [c for c in funcs.get(name, []) if file is None or c[0].endswith(file)]
        if not cands:
            continue
        rs = [tuple(map(int, (r.split('-') * 2)[:2])) for r in re.split(r'[,\s]+', ranges) if r]
        ok = any(any(ra <= b and rb >= a and ra >= a - 1 or (ra == a) for ra, rb in rs) and any(rb <= b + 1 and ra<=b and rb>=a for ra, rb in rs) for f, a, b in cands)
        if not ok:
            print(os.path.relpath(path, HERE + '/..'), text[:m.start()].count('\n') + 1, name, file, ranges, cands)
