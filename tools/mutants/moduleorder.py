"""Mutants that let tables depend on the order in which modules are read."""
MUTANTS = []


def m(name, definition, edit, claim, expect, *edits):
    MUTANTS.append(dict(name=name, definition=definition, edit=edit, claim=claim,
                        expect=expect.split(), edits=list(edits)))


S = 'Stubs'
m('mo_lazy_typevar', 'isTypeVar', 'the module of a type argument is not read, only looked at if it was read before', 'C118: the order does not matter without cycles', 'C118_read_partial C118_tables_partial',
  (S, '''  let _ ← parse q.1
  let nodes ← P.item ParseState.nodes q.1
''', '''  let s ← P.get
  let nodes : Dict Path (List Stmt) := (s.nodes.lookup q.1).getD []
'''))
m('mo_lazy_stars', 'resolveIn', 'star-imported modules are only searched if they were read before', 'C118: the order does not matter without cycles', 'C118_read_partial C118_tables_partial',
  (S, '        else P.fail .objectNotFound) ((s.submodules.lookup m).getD [])', '        else P.fail .objectNotFound) (((s.submodules.lookup m).getD []).filter s.visited.contains)'))
m('mo_no_builtins', 'parseAll', 'builtins is not read first', 'C118: the order does not matter without cycles', 'C118_read_partial C118_tables_partial',
  (S, '  let _ ← parseScope E n builtinsPath\n  P.each (fun m => do', '  P.each (fun m => do'))
m('mo_latest', 'addDefinition', 'definitions are entered for the module that was asked for last', 'C118: the order does not matter without cycles', 'C118_read_partial C118_tables_partial',
  (S, '{ s with definitions := dictUpdate s.definitions c.module (.mk []) (·.add (c.parent ++ path)) }', '{ s with definitions := dictUpdate s.definitions (s.reads.headD c.module) (.mk []) (·.add (c.parent ++ path)) }'))
m('mo_first_reference', 'addReference', 'an import is only recorded if its module was not read yet', 'C118: the order does not matter without cycles', 'C118_read_partial C118_tables_partial',
  (S, '  { s with references := dictUpdate s.references c.module [] (fun d => dictSet d path referent) }', '  if s.visited.contains referent.1 && referent.1 != c.module then s else { s with references := dictUpdate s.references c.module [] (fun d => dictSet d path referent) }'))
m('mo_shared_bases', 'addBase', 'bases of classes of the same name in different modules are kept together', 'C118: the order does not matter without cycles', 'C118_read_partial C118_superclasses_partial',
  (S, '  { s with classesBases := dictUpdate s.classesBases cls [] (· ++ [base]) }', '  { s with classesBases := dictUpdate s.classesBases ((s.classesBases.map Prod.fst).find? (fun k => k.2 == cls.2) |>.getD cls) [] (· ++ [base]) }'))
