MUTANTS = []


def m(name, definition, edit, claim, expect, *edits):
    MUTANTS.append(dict(name=name, definition=definition, edit=edit, claim=claim,
                        expect=expect.split(), edits=list(edits)))


S = 'Stubs'
m('rd_function_kind', 'visitFunctionDef', 'asynchronous functions are recorded as plain ones', 'C100: kinds', 'C100_kinds',
  (S, "(if f.isAsync then .asyncFunction else .function)", ".function"))
m('rd_function_none', 'visitFunctionDef', 'functions get no kind', 'C100: kinds', 'C100_kinds',
  (S, "  P.update (addKind c [f.name] (if f.isAsync then .asyncFunction else .function))\n", ""))
m('rd_class_kind', 'visitClassHead', 'classes get no kind', 'C100: kinds', 'C100_kinds C101_class',
  (S, "  P.update (addKind c [name] .class_)\n", ""))
m('rd_class_name', 'visitClassHead', 'the kind of a nested class is recorded at the top level', 'C100: kinds', 'C100_kinds',
  (S, "  P.update (addKind c [name] .class_)\n", "  P.update (addKind { c with parent := [] } [name] .class_)\n"))
m('rd_annotated_kind', 'visitAnnAssign', 'annotated assignments count as assignments', 'C100: kinds', 'C100_kinds',
  (S, "addKind c path .annotatedAssignment", "addKind c path .assignment"))
m('rd_alias_kind', 'visitAnnAssign', 'aliases with annotations get a kind', 'C100: kinds', 'C100_kinds',
  (S, """    let q ← toQualified resolve c valuePath
    P.update (addReference c path q)

/-- `visit_Assign`""", """    let q ← toQualified resolve c valuePath
    P.update (addKind c path .annotatedAssignment)
    P.update (addReference c path q)

/-- `visit_Assign`"""))
m('rd_first_kind', 'addKind', 'the first kind of a name is kept', 'C100: the last kind counts', 'C100_kinds',
  (S, "(fun d => dictSet d (c.parent ++ path) kind)", "(fun d => if (d.lookup (c.parent ++ path)).isSome then d else dictSet d (c.parent ++ path) kind)"))
m('rd_body_parent', 'visit', 'bodies of classes are visited at the top level', 'C100', 'C100_kinds C100_nodes',
  (S, "P.each (visit E n { module := c.module, parent := c.parent ++ [name] }) body", "P.each (visit E n c) body"))
m('rd_both_branches', 'visit', 'both branches of a condition are visited', 'C100', 'C100_kinds C100_nodes',
  (S, "(if condition then body else orelse)", "(body ++ orelse)"))
m('rd_keep_kinds', 'parseScope', 'the kinds of a module are not created before its body is read', 'C100: module without definitions has an (empty) entry', 'parsed_consistent',
  (S, "          kinds := dictSet s.kinds m []\n", ""))
m('rd_keep_nodes', 'parseScope', 'the trees of a module are not created before its body is read', 'C100: module without definitions has an (empty) entry', 'parsed_consistent',
  (S, "          nodes := dictSet s.nodes m []\n", ""))
m('rd_prepend_node', 'addNode', 'later definitions come first', 'C100/C101: overloads in the order of the source', 'C100_nodes C101_function',
  (S, "[] (· ++ [node])", "[] (node :: ·)"))
m('rd_only_asked', 'parseAll', 'only the first of the modules is read', 'C100: modules asked for are read', 'C100_in_turn C100_asked',
  (S, "    let _ ← parseScope E n m\n    pure ()) modules", "    let _ ← parseScope E n m\n    pure ()) (modules.take 1)"))
m('rd_not_twice', 'parseScope', 'modules are not marked as read before their body', 'C100/C68', 'C100_in_turn',
  (S, "{ s with visited := m :: s.visited, reads := m :: s.reads }", "{ s with reads := m :: s.reads }"))
