MUTANTS = []


def m(name, definition, edit, claim, expect, *edits):
    MUTANTS.append(dict(name=name, definition=definition, edit=edit, claim=claim,
                        expect=expect.split(), edits=list(edits)))


T = 'Evaluation'
S = 'Session'
m('se_keep_ns', 'evaluateNode', 'names evaluated for one question are still known in the next', 'C76/C102: answers do not depend on earlier questions', 'C76_whatever_partial C102_settled_partial',
  (T, "m parent e { s with ns := [], back := [] }", "m parent e s"))
m('se_cache_name', 'evalAssign', 'values of assignments are cached for the name alone', 'C76/C102: assignments in different classes do not mix', 'C76_whatever_partial',
  (T, "paths.foldl (fun d q => dictPut q result d) s.assigned", "paths.foldl (fun d q => dictPut (q.1, q.2.drop (q.2.length - 1)) result d) s.assigned"))
m('se_cache_parent', 'evalAssign', 'values of assignments are cached for the class around', 'C76/C102', 'C76_whatever_partial',
  (T, "paths.foldl (fun d q => dictPut q result d) s.assigned", "paths.foldl (fun d q => dictPut (q.1, q.2.dropLast) result d) s.assigned"))
m('se_cache_module', 'evalAssign', 'values of assignments are cached without their module', 'C76/C102', 'C76_whatever_partial',
  (T, "paths.foldl (fun d q => dictPut q result d) s.assigned", "paths.foldl (fun d q => dictPut ([], q.2) result d) s.assigned"),
  (T, "    match s.assigned.lookup q with", "    match s.assigned.lookup ([], q.2) with"))
m('se_stub_cache_last', 'evalStub', 'the cache of objects is asked for the last part of the path', 'C76/C102', 'C76_whatever_partial',
  (T, "  match s.objects.lookup (m, path) with", "  match s.objects.lookup (m, path.drop (path.length - 1)) with"))
m('se_class_module', 'evalClass', 'classes are cached without the classes around them', 'C76/C89', 'C76_whatever_partial',
  (T, "objects := dictPut (m, path) v s.objects", "objects := dictPut (m, path.drop (path.length - 1)) v s.objects"))
m('se_reset', 'session', 'every question starts with the caches of the first', 'C102 (refuted for the code)', 'C102_refuted',
  (S, "    r.1 :: session R E cs r.2", "    r.1 :: session R E cs s"))
m('se_catch_all', 'catchNotFound', 'any exception is taken for a missing signature', 'C102/C31', 'C102_settled_partial',
  (S, "  | (.error .signatureNotFound, s) => handler s", "  | (.error _, s) => handler s"))
m('se_named_parent', 'fromNamedS', 'objects referred to are evaluated in the module of the reference', 'C102: same as the stateless functions', 'C102_settled_partial',
  (S, "    | [node] => statement node q.1", "    | [node] => statement node m"))
m('se_builder_parent', 'fromClassS', 'constructors are evaluated outside of their class', 'C102', 'C102_settled_partial',
  (S, "fromStatementS R E R.depth node f q.1 q.2.dropLast) nodes", "fromStatementS R E R.depth node f q.1 []) nodes"))
m('se_returns_first', 'fromFunctionDefS', 'the module is forgotten for return annotations', 'C102', 'C102_settled_partial',
  (S, "    | some e => E m parent e", "    | some e => E m [] e"))
m('se_paths_state', 'fromPathsS', 'after a failure the remaining places are skipped', 'C102/C85', 'C102_settled_partial',
  (S, "    | none => fromPathsS R E value paths", "    | none => Ev.raise .signatureNotFound"))
m('se_self_cache', 'initialEval', 'the type Self is not known at first', 'C76/C102: Self means the same in all signatures', '',
  (T, "{ objects := [((["+'"_typeshed"], ["Self"]), self)] }', "{ objects := [] }"))
m('se_decimal_ns', 'evalNodes', 'values of objects are bound to their first name', 'C76', 'C76_whatever_partial',
  (T, "    let v ← evalStmt W T depth other look m path.dropLast node\n    putName (path.getLast?.getD \"\") v", "    let v ← evalStmt W T depth other look m path.dropLast node\n    Ev.modify fun s => { s with objects := dictPut (m, [path.getLast?.getD \"\"]) v s.objects }"))
