MUTANTS = []


def m(name, definition, edit, claim, expect, *edits):
    MUTANTS.append(dict(name=name, definition=definition, edit=edit, claim=claim,
                        expect=expect.split(), edits=list(edits)))


T = 'Evaluation'
m('ev_search', 'searchObject', 'only the first name is looked up', 'C75/C77: real objects are used', 'C77',
  (T, '    | .ok value => searchObject W value names', '    | .ok value => .ok value'))
m('ev_search_error', 'searchObject', 'other errors count as not found', 'C77', '',
  (T, '    | .error .attributeError => .error .objectNotFound\n    | .error e => .error e', '    | .error _ => .error .objectNotFound'))
m('ev_union', 'evalBinary', 'a union is made for every operator', 'C75', 'C75',
  (T, 'if op = "BitOr" then W.union left right else .error .assertionError', 'W.union left right'))
m('ev_union_swap', 'evalBinary', 'the union has its sides swapped', 'C75', 'C75',
  (T, 'W.union left right else', 'W.union right left else'))
m('ev_binary_op', 'binaryOperator', 'bitwise and is not supported', 'C75', 'C75',
  (T, 'if op = "BitAnd" ∨ op = "BitOr" ∨ op = "BitXor" then', 'if op = "BitOr" ∨ op = "BitXor" then'))
m('ev_item_fail', 'evalItem', 'subscription errors are raised', 'C75 (lenient)', 'C75',
  (T, '  | .error (.typeError _) => .ok value\n', '  | .error (.typeError t) => .error (.typeError t)\n'))
m('ev_item_all', 'evalItem', 'every subscription is dropped', 'C75', 'C75',
  (T, '  match W.getitem value item with\n  | .ok v => .ok v', '  match W.getitem value item with\n  | .ok _ => .ok value'))
m('ev_kwargs', 'kwargsOf', 'the first of equal keywords counts', 'C75: Python refuses or the last counts', '',
  (T, 'kws.foldl (fun d kv => dictPut kv.1 kv.2 d) []', 'kws.foldl (fun d kv => if (d.lookup kv.1).isSome then d else dictPut kv.1 kv.2 d) []'))
m('ev_name_parent', 'evalExpr', 'names are looked up from the top of the module', 'C75/C76', 'C75',
  (T, '      let q ← evResolve T depth m parent [id]\n      look q', '      let q ← evResolve T depth m [] [id]\n      look q'))
m('ev_attr_first', 'evalExpr', 'attributes are resolved in the stubs only', 'C75', 'C75',
  (T, '      match W.getattr v attr with\n      | .ok v => Ev.pure v', '      match W.getattr v attr with\n      | .ok _ => Ev.pure v'))
m('ev_sub_swap', 'evalExpr', 'slices are evaluated as the value', 'C75', 'C75',
  (T, 'Ev.lift (evalItem W v i)', 'Ev.lift (evalItem W i v)'))
m('ev_tuple_list', 'evalExpr', 'tuples become lists', 'C75', 'C75',
  (T, 'Ev.pure (W.tuple vs)', 'Ev.pure (W.list vs)'))
m('ev_call_kwargs', 'evalExpr', 'keyword arguments are dropped', 'C75', 'C75',
  (T, 'Ev.lift (W.call f args (kwargsOf kwargs))', 'Ev.lift (W.call f args [])'))
m('ev_unary', 'evalExpr', 'signs are dropped', 'C75', 'C75',
  (T, '        let v ← evalExpr m parent operand\n        Ev.lift (W.unary tag v)', '        evalExpr m parent operand'))
m('ev_dict', 'evalEntries', 'keys and values are swapped', 'C75', 'C75',
  (T, 'Ev.pure ((key, value) :: entries)', 'Ev.pure ((value, key) :: entries)'))
m('ev_dict_star', 'evalExpr', '** in dictionaries is accepted', 'C75', '',
  (T, 'else if tag = "Dict**" then Ev.raise .assertionError', 'else if tag = "Dict**" then Ev.lift (W.dict [])'))
m('ev_exprs', 'evalExprs', 'elements in reverse order', 'C75', 'C75',
  (T, '    let vs ← evalExprs m parent es\n    Ev.pure (v :: vs)', '    let vs ← evalExprs m parent es\n    Ev.pure (vs ++ [v])'))
m('ev_cached', 'cachedTarget', 'cached assignments are ignored', 'C76/C77/C79', '',
  (T, '    | some v => Ev.pure (some v)\n    | none =>\n      let v ← Ev.lift (W.forwardRef', '    | some _ => cachedTarget qs\n    | none =>\n      let v ← Ev.lift (W.forwardRef'))
m('ev_cached_name', 'cachedTarget', 'forward references name only the first part', 'C76', '',
  (T, 'W.forwardRef (".".intercalate q.2)', 'W.forwardRef (".".intercalate (q.2.take 1))'))
m('ev_assign_cache', 'evalAssign', 'values are not cached', 'C76/C77/C79', '',
  (T, '{ s with assigned := paths.foldl (fun d q => dictPut q result d) s.assigned }', 's'))
m('ev_assign_forward', 'cachedTarget', 'no forward reference is left', 'C79: cycles end', '',
  (T, '      Ev.modify fun s => { s with assigned := dictPut q v s.assigned }\n      cachedTarget qs', '      cachedTarget qs'))
m('ev_text_str', 'Atom.text', 'strings are quoted', 'C80', '',
  (T, '  | .str s => s\n', '  | .str s => "\'" ++ s ++ "\'"\n'))
m('ev_str_sub', 'toStr', 'subscripts lose their arguments', 'C80', '',
  (T, '.ok (t ++ "[" ++ u ++ "]")', '.ok t'))
m('ev_lazy_none', 'lazyExpr', 'missing annotations become empty texts', 'C80', 'C80',
  (T, '  | none => .ok none\n  | some e =>\n    match toStr other e with\n    | .ok t => .ok (some', '  | none => .ok (some (.constant (.str "")))\n  | some e =>\n    match toStr other e with\n    | .ok t => .ok (some'))
m('ev_lazy_arg', 'lazyArg', 'parameters are renamed', 'C80', 'C80',
  (T, '  | .ok annotation => .ok { a with annotation := annotation }', '  | .ok annotation => .ok { a with annotation := annotation, name := "_" ++ a.name }'))
m('ev_lazy_kwarg', 'lazyFunction', '**kwargs are dropped', 'C80', 'C80',
  (T, 'kwonlyargs := kwonlyargs, kwarg := kwarg } }', 'kwonlyargs := kwonlyargs, kwarg := none } }'))
m('ev_lazy_defaults', 'lazyFunction', 'defaults are dropped', 'C80', 'C80',
  (T, 'kwonlyargs := kwonlyargs, kwarg := kwarg } }', 'kwonlyargs := kwonlyargs, kwarg := kwarg, defaults := [] } }'))
m('ev_lazy_returns', 'lazyFunction', 'the returned annotation is not postponed', 'C80', 'C80',
  (T, '    returns := returns\n    args := { f.args with', '    args := { f.args with'))
m('ev_lazy_decorators', 'lazyFunction', 'decorators are dropped', 'C80', 'C80',
  (T, '    returns := returns\n    args := { f.args with', '    returns := returns\n    decorators := []\n    args := { f.args with'))
m('ev_stmt_ns', 'evalStmt', 'functions are defined in an empty namespace', 'C78', '',
  (T, 'W.define f (s.ns ++ s.back)', 'W.define f []'))
m('ev_stmt_lazy', 'evalStmt', 'annotations of functions are not postponed', 'C78/C80', '',
  (T, '    let f ← Ev.lift (lazyFunction other f)\n    let s', '    let s'))
m('ev_nodes_first', 'evalNodes', 'the first definition counts', 'C78', 'C78',
  (T, '    evalNodes m path (some v) nodes', '    Ev.pure v'))
m('ev_nodes_parent', 'evalNodes', 'definitions are evaluated inside themselves', 'C78', '',
  (T, 'evalStmt W T depth other look m path.dropLast node', 'evalStmt W T depth other look m path node'))
m('ev_bare', 'bareAnnotation', 'annotations with a value count as bare', 'members with values are attributes', '',
  (T, '  | .annAssign _ annotation none => some annotation', '  | .annAssign _ annotation _ => some annotation'))
m('ev_deps_builtin', 'evalDependencies', 'built-ins are evaluated too', 'C79', '',
  (T, '    if q.1 ≠ builtinsPath then do\n      let v ← look q', '    if q.1 ≠ [] then do\n      let v ← look q'))
m('ev_members_nodes', 'evalMembers', 'members get the nodes of the class', 'stub-only classes', '',
  (T, 'getKey nodes (path ++ [name])', 'getKey nodes path'))
m('ev_members_value', 'evalMembers', 'members are not stored', 'stub-only classes', '',
  (T, '      | some v => dictPut name v cls\n', '      | some _ => cls\n'))
m('ev_class_bases', 'evalClass', 'superclasses are ignored', 'stub-only classes', '',
  (T, 'W.newClass path bases cls', 'W.newClass path [] cls'))
m('ev_class_cache', 'evalClass', 'classes are not cached', 'C76/C77', '',
  (T, '  Ev.modify fun s => { s with objects := dictPut (m, path) v s.objects }\n', ''))
m('ev_class_ann', 'evalClass', 'annotations are not evaluated', 'stub-only classes', '',
  (T, 's.given ++ vs.map fun kv => (v, kv)', 's.given'))
m('ev_stub_cache', 'evalStub', 'the cache is not read', 'C76/C77', '',
  (T, '  | some v => Ev.pure v\n  | none => do\n    let nodes ← Ev.lift (getKey T.rawAstNodes m)', '  | some _ | none => do\n    let nodes ← Ev.lift (getKey T.rawAstNodes m)'))
m('ev_stub_kind', 'evalStub', 'classes with nodes are evaluated as plain nodes', 'stub-only classes', '',
  (T, '      if kind ≠ .class_ then evalNodes W T depth other look m path none stmts\n      else', '      if true then evalNodes W T depth other look m path none stmts\n      else'))
m('ev_path_real', 'evalPath', 'real objects are ignored', 'C77: available objects are used', 'C77',
  (T, '      match searchObject W module path with\n      | .ok v => Ev.pure v', '      match searchObject W module path with\n      | .ok _ => evalStub W T depth other (evalPath W T depth other n) m path'))
m('ev_path_error', 'evalPath', 'errors of attributes fall back to the stubs', 'C77', '',
  (T, '      | .error .objectNotFound => evalStub W T depth other (evalPath W T depth other n) m path\n      | .error e => Ev.raise e', '      | .error _ => evalStub W T depth other (evalPath W T depth other n) m path'))
m('ev_path_modules', 'evalPath', 'made modules are not cached', 'C76/C79', '',
  (T, '          Ev.modify fun s => { s with modules := dictPut m module s.modules }\n', ''))
m('ev_names', 'evalNames', 'members of made modules are not set', 'stub-only modules', '',
  (T, '    Ev.modify fun s => { s with given := s.given ++ [(module, name, v)] }\n', ''))
m('ev_node_ns', 'evaluateNode', 'names of an earlier evaluation stay', 'C76', '',
  (T, '{ s with ns := [], back := [] }', 's'))
m('ev_put', 'dictPut', 'the old value stays', 'C78', '',
  (T, 'if k == key then (k, value) :: d else', 'if k == key then (k, v) :: d else'))

m('ev_roots_decorators', 'Stmt.roots', 'decorators are not dependencies', 'C105: methods can be executed', 'C105',
  (T, '++ f.args.defaults ++ f.decorators ++ f.returns.toList', '++ f.args.defaults ++ f.returns.toList'))
m('ev_roots_kwdefaults', 'Stmt.roots', 'defaults of keyword-only parameters are not dependencies', 'C105', 'C105',
  (T, '++ f.args.kwDefaults.filterMap id ++ f.args.defaults', '++ f.args.defaults'))
m('ev_deps_name', 'evalDependencies', 'dependencies are stored under the last part of their path', 'C105', 'C105',
  (T, '      putName name v\n      evalDependencies m path names', '      putName (q.2.getLast?.getD name) v\n      evalDependencies m path names'))
m('ev_deps_parent', 'evalDependencies', 'dependencies are resolved outside of the class', 'C105', 'C105',
  (T, '    let q ← evResolve T depth m path [name]\n    if q.1', '    let q ← evResolve T depth m path.dropLast [name]\n    if q.1'))
m('ev_deps_builtin', 'evalDependencies', 'builtins are evaluated only', 'C105', 'C105',
  (T, '    if q.1 ≠ builtinsPath then do', '    if q.1 = builtinsPath then do'))
m('ev_defs_mod', 'evalDefinitions', 'the module namespace is forgotten', 'C105', 'C105',
  (T, '    let (v, cls) ← Ev.within cls mod (evalStmt', '    let (v, cls) ← Ev.within cls [] (evalStmt'))
