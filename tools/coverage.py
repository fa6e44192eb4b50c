"""Lists the functions of /repo/paradigm and the model definitions citing their lines."""
import ast
import glob
import os
import re
import sys

HERE = os.path.dirname(os.path.abspath(__file__))
REPO = '/repo/paradigm'


def citations():
    """File (relative to REPO) -> list of (first, last, 'Model/X.lean:name')."""
    result = {}
    names = {}
    for path in glob.glob(REPO + '/**/*.py', recursive=True):
        names.setdefault(os.path.basename(path), []).append(os.path.relpath(path, REPO))
    for path in sorted(glob.glob(os.path.join(HERE, '../lean/Verif/Model/*.lean'))):
        text = open(path).read()
        for match in re.finditer(r'/-[-!](.*?)-/\s*(?:@\[[^\]]*\]\s*)?(?:(?:def|structure|inductive|abbrev|instance)\s+(\S+))?',
                                 text, re.S):
            doc, name = match.group(1), match.group(2)
            for cite in re.finditer(r'([\w/]+\.py):([\d,\-\s]*\d)', doc):
                file, ranges = cite.groups()
                file = re.sub(r'^/?repo/paradigm/', '', file.lstrip('/'))
                if file not in sum(names.values(), []):
                    candidates = [c for c in names.get(os.path.basename(file), []) if c.endswith(file)]
                    if len(candidates) != 1:
                        continue
                    file = candidates[0]
                for r in re.split(r'[,\s]+', ranges):
                    if r:
                        a, _, b = r.partition('-')
                        result.setdefault(file, []).append(
                            (int(a), int(b or a),
                             os.path.basename(path)[:-5] + '.' + (name or '(header)')))
    return result


def functions():
    for path in sorted(glob.glob(REPO + '/**/*.py', recursive=True)):
        file = os.path.relpath(path, REPO)
        tree = ast.parse(open(path).read())
        stack = [(tree, '')]
        found = []
        while stack:
            node, prefix = stack.pop()
            for child in ast.iter_child_nodes(node):
                if isinstance(child, (ast.FunctionDef, ast.AsyncFunctionDef)):
                    first = min([child.lineno] + [d.lineno for d in child.decorator_list])
                    found.append((first, child.end_lineno, prefix + child.name))
                elif isinstance(child, ast.ClassDef):
                    stack.append((child, prefix + child.name + '.'))
                else:
                    stack.append((child, prefix))
        yield file, sorted(found)


if __name__ == '__main__':
    cites = citations()
    for file, found in functions():
        for first, last, name in found:
            by = sorted({n for a, b, n in cites.get(file, []) if a <= last and b >= first})
            if '-u' in sys.argv and by:
                continue
            print(f'{file}:{first}-{last} {name}: {", ".join(by) or "-"}')
