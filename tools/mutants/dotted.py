"""Mutants about bases that are written with dots."""
MUTANTS = []


def m(name, definition, edit, claim, expect, *edits):
    MUTANTS.append(dict(name=name, definition=definition, edit=edit, claim=claim,
                        expect=expect.split(), edits=list(edits)))


S = 'Stubs'
X = 'C92_written_partial'
OLD = '''    (List.range (split alias.name).length).map
      (fun i => ((split alias.name).take (i + 1), (split alias.name).take (i + 1), []))
'''
m('do_first', 'importBindings', 'of `import a.b` only `a` is made known', 'C42, C92: dotted bases are found', X,
  (S, OLD, '''    [((split alias.name).take 1, (split alias.name).take 1, [])]
'''))
m('do_last', 'importBindings', 'of `import a.b` only `a.b` is made known', 'C42, C92: names that refer to packages', 'C42_import',
  (S, OLD, '''    [(split alias.name, split alias.name, [])]
'''))
m('do_all_last', 'importBindings', 'all names made known by `import a.b` refer to `a.b`', 'C42: names refer to their packages', 'C42_import',
  (S, OLD, '''    (List.range (split alias.name).length).map
      (fun i => ((split alias.name).take (i + 1), split alias.name, []))
'''))
m('do_object', 'importBindings', '`import a.b as c` refers to the object `b` of the module `a`', 'C92: dotted bases are found', X,
  (S, '  | some asname => [([asname], split alias.name, [])]', '  | some asname => [([asname], (split alias.name).dropLast, (split alias.name).drop ((split alias.name).length - 1))]'))
m('do_asname_top', 'importBindings', '`import a.b as c` refers to `a`', 'C92: dotted bases are found', X,
  (S, '  | some asname => [([asname], split alias.name, [])]', '  | some asname => [([asname], (split alias.name).take 1, [])]'))
