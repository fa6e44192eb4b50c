MUTANTS = []


def m(name, definition, edit, claim, expect, *edits):
    MUTANTS.append(dict(name=name, definition=definition, edit=edit, claim=claim,
                        expect=expect.split(), edits=list(edits)))


S = 'Stubs'
T = 'Specialization'
O = '''    (o.order ((dedup (newNodes.flatMap Stmt.loadedNames)).filter fun x =>
      !defined.flatten.contains x))'''
m('or_test_first', 'evaluateTest', 'only the first name of a test is looked up', 'C114: which one depends on the order', 'C114_order',
  (S, '(E.order test.dependencies)', '((E.order test.dependencies).take 1)'))
m('or_test_until', 'evaluateTest', 'names after sys are not looked up', 'C114', 'C114_order',
  (S, '(E.order test.dependencies)', '((E.order test.dependencies).takeWhile (· ≠ "sys"))'))
m('or_test_last', 'evaluateTest', 'a test sees the last object only', 'C114', 'C114_order',
  (S, '  P.lift (E.condition test namespace_)', '  P.lift (E.condition test (namespace_.reverse.take 1))'))
m('or_test_shift', 'evaluateTest', 'names of a test get the objects of their neighbours', 'C114', 'C114_order',
  (S, '  P.lift (E.condition test namespace_)', '  P.lift (E.condition test ((namespace_.map Prod.fst).zip ((namespace_.drop 1 ++ namespace_.take 1).map Prod.snd)))'))
m('or_fix', 'parseScope', 'a module whose reading breaks off is forgotten and read again', 'C114_refuted: its witness shows a bug that would be repaired', 'C114_refuted',
  (S, '        P.each (visit E n { module := m, parent := [] }) body\n        P.item ParseState.definitions m',
   '        fun s0 => match P.each (visit E n { module := m, parent := [] }) body s0 with\n          | (.ok _, s) => P.item ParseState.definitions m s\n          | (.error e, s) => (.error e, { s with visited := s.visited.erase m })'))
m('or_dep_last', 'registerMember', 'only the last name of a member is recorded', 'C70/C114', 'C114_order',
  (T, O, '    ((o.order ((dedup (newNodes.flatMap Stmt.loadedNames)).filter fun x =>\n      !defined.flatten.contains x)).drop 1)'))
m('or_dep_until', 'registerMember', 'recording stops at the first builtin name', 'C70/C114', 'C114_order',
  (T, O, '    ((o.order ((dedup (newNodes.flatMap Stmt.loadedNames)).filter fun x =>\n      !defined.flatten.contains x)).takeWhile (· ≠ "int"))'))
m('or_dep_replace', 'setSpecReference', 'a new reference replaces all earlier ones', 'C70/C114', 'C114_order',
  (T, '(dictSet · path q) }\n\n/-- `specializations_ast_nodes', '(fun _ => [(path, q)]) }\n\n/-- `specializations_ast_nodes'))
m('or_dep_key', 'registerDependency', 'all references are filed under the module', 'C70/C114', 'C114_order',
  (T, 'P.update (setSpecReference [name] q)', 'P.update (setSpecReference q.1 q)'))
m('or_dep_seen', 'registerDependency', 'a module is referred to once', 'C70/C114', 'C114_order',
  (T, '  if q.1 ≠ builtinsPath then\n    P.update (setSpecReference [name] q)',
   '  let s ← P.get\n  if q.1 ≠ builtinsPath ∧ ¬ (((s.references.lookup specPath).getD []).any fun r => r.2.1 == q.1) then\n    P.update (setSpecReference [name] q)'))
m('or_dep_keep', 'registerDependency', 'only the first reference is kept', 'C70/C114', 'C114_order',
  (T, '  if q.1 ≠ builtinsPath then\n    P.update (setSpecReference [name] q)',
   '  let s ← P.get\n  if q.1 ≠ builtinsPath ∧ ((s.references.lookup specPath).getD []).isEmpty then\n    P.update (setSpecReference [name] q)'))
m('or_dep_where', 'registerDependency', 'names are looked up among the specialisations first found', 'C70/C114', 'C114_order',
  (T, '(if argsNames.contains name then sm else gm)', '(if argsNames.contains name then sm else specPath)'))
m('or_dep_def', 'registerDependency', 'recorded names are defined among the specialisations', 'C71/C114', 'C114_order',
  (T, 'P.update (setSpecReference [name] q)', 'P.update (fun s => setSpecScope (·.add [name]) (setSpecReference [name] q s))'))
