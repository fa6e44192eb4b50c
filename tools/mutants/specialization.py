MUTANTS = []


def m(name, definition, edit, claim, expect, *edits):
    MUTANTS.append(dict(name=name, definition=definition, edit=edit, claim=claim,
                        expect=expect.split(), edits=list(edits)))


T = 'Specialization'
m('sp_ident_sep', 'toIdentifier', 'elements of a tuple are joined without a separator', 'C47: names tell bases apart', 'C47',
  (T, 'return String.intercalate "_" elts', 'return String.intercalate "" elts'))
m('sp_ident_slice', 'toIdentifier', 'the arguments are left out of the name', 'C47', 'C47',
  (T, 'return value ++ "_getitem_" ++ slice', 'return value ++ "_getitem_"'))
m('sp_ident_value', 'toIdentifier', 'the class is left out of the name', 'C47', 'C47',
  (T, 'return value ++ "_getitem_" ++ slice', 'return "_getitem_" ++ slice'))
m('sp_ident_attr', 'toIdentifier', 'dotted names keep only their last part', 'C47', '',
  (T, 'return value ++ "_" ++ attr', 'return attr'))
m('sp_ident_op', 'opIdentifier', 'two operators share a name', 'C47', '',
  (T, 'else if op = "BitXor" then .ok "bitxor"', 'else if op = "BitXor" then .ok "bitor"'))
m('sp_name_store', 'specialize', 'assigned names are replaced too', 'C46: only what is read is replaced', 'C46',
  (T, '    if !load then .ok (.name id load)\n    else\n      match table.lookup [id] with', '    if false then .ok (.name id load)\n    else\n      match table.lookup [id] with'))
m('sp_name_kept', 'specialize', 'names are never replaced', 'C46', 'C46',
  (T, '      | none => .ok (.name id load)\n      | some candidate => .ok candidate\n  | .attribute', '      | none => .ok (.name id load)\n      | some _ => .ok (.name id load)\n  | .attribute'))
m('sp_attr_kept', 'specialize', 'dotted names are never replaced', 'C46', 'C46',
  (T, '        | none => .ok (.attribute value attr load)\n        | some candidate => .ok candidate', '        | none => .ok (.attribute value attr load)\n        | some _ => .ok (.attribute value attr load)'))
m('sp_slice_kept', 'specialize', 'type arguments are not visited', 'C46', 'C46',
  (T, '  | .subscript value slice load => do\n    let value ← specialize table value\n    let slice ← specialize table slice\n    return .subscript', '  | .subscript value slice load => do\n    let value ← specialize table value\n    return .subscript'))
m('sp_binop_right', 'specialize', 'the right operand is not visited', 'C46', 'C46',
  (T, '    let right ← specialize table right\n    return .binOp', '    return .binOp'))
m('sp_binop_swap', 'specialize', 'operands are swapped', 'C46', 'C46',
  (T, 'return .binOp left op right', 'return .binOp right op left'))
m('sp_kw_kept', 'specializeKeywords', 'keyword arguments are not visited', 'C46', 'C46',
  (T, '    let e ← specialize table e\n    let es ← specializeKeywords table es', '    let es ← specializeKeywords table es'))
m('sp_all_rest', 'specializeAll', 'only the first element is visited', 'C46', 'C46',
  (T, '    let e ← specialize table e\n    let es ← specializeAll table es\n', '    let e ← specialize table e\n'))
m('sp_f_vararg', 'specializeFunction', 'the annotation of *args is kept', 'C46', 'C46',
  (T, '  let vararg ← specializeArgOption table f.args.vararg\n', '  let vararg := f.args.vararg\n'))
m('sp_f_kwarg', 'specializeFunction', '**kwargs get the annotation of *args', 'C46', 'C46',
  (T, 'let kwarg ← specializeArgOption table f.args.kwarg', 'let kwarg ← specializeArgOption table f.args.vararg'))
m('sp_f_returns', 'specializeFunction', 'the returned annotation is kept', 'C46', 'C46',
  (T, '  let returns ← specializeOption table f.returns\n', '  let returns := f.returns\n'))
m('sp_f_decorators', 'specializeFunction', 'decorators are dropped', 'C46', 'C46',
  (T, '    decorators := decorators\n', '    decorators := []\n'))
m('sp_f_defaults', 'specializeFunction', 'defaults of keyword-only parameters are dropped', 'C46', 'C46',
  (T, 'kwDefaults := kwDefaults,', 'kwDefaults := kwonlyargs.map (fun _ => none),'))
m('sp_ann_value', 'specializeStmt', 'the value of an annotated assignment is dropped', 'C46', 'C46',
  (T, '    return .annAssign target annotation value\n', '    return .annAssign target annotation none\n'))
m('sp_assign_value', 'specializeStmt', 'the value of an assignment is not visited', 'C46', 'C46',
  (T, '    let value ← specialize table value\n    return .assign', '    return .assign'))
m('sp_getpath', 'Scope.getPath', 'a missing class has an empty scope', 'C46 (members)', '',
  (T, '    match scope.get? part with\n    | none => none\n    | some scope => scope.getPath path', '    match scope.get? part with\n    | none => some (.mk [])\n    | some scope => scope.getPath path'))
m('sp_merge', 'Scope.mergeAt', 'members are not defined in the specialised class', 'C72: members are found', '',
  (T, 'P.update (setSpecScope (·.mergeAt genericScope.entries so))', 'P.update (setSpecScope (·.mergeAt [] so))'))
m('sp_merge_top', 'registerGeneric', 'members are defined at the top of __specializations', 'C72', '',
  (T, '(·.mergeAt genericScope.entries so)', '(·.mergeAt genericScope.entries [])'))
m('sp_dep_module', 'registerDependency', 'all names are resolved in the module of the derived class', 'C70', 'C70',
  (T, '(if argsNames.contains name then sm else gm)', 'sm'))
m('sp_dep_generic', 'registerDependency', 'all names are resolved in the module of the generic class', 'C70', 'C70',
  (T, '(if argsNames.contains name then sm else gm)', 'gm'))
m('sp_dep_builtin', 'registerDependency', 'references to built-ins are recorded too', 'C70', '',
  (T, '  if q.1 ≠ builtinsPath then\n    P.update (setSpecReference', '  if q.1 ≠ [] then\n    P.update (setSpecReference'))
m('sp_dep_none', 'registerDependency', 'references are not recorded', 'C70', 'C70',
  (T, '    P.update (setSpecReference [name] q)', '    pure ()'))
m('sp_member_nodes', 'registerMember', 'nodes are not replaced', 'C46', 'C46',
  (T, 'P.update (setSpecNodes (so ++ [name]) newNodes)', 'P.update (setSpecNodes (so ++ [name]) genericNodes)'))
m('sp_member_kind', 'registerMember', 'members have kind function', 'C46', 'C46',
  (T, 'P.update (setSpecKind (so ++ [name]) kind)', 'P.update (setSpecKind (so ++ [name]) .function)'))
m('sp_member_where', 'registerMember', 'nodes are filed at the top of __specializations', 'C46', 'C46',
  (T, 'P.update (setSpecNodes (so ++ [name]) newNodes)', 'P.update (setSpecNodes [name] newNodes)'))
m('sp_member_names', 'registerMember', 'names of the member itself are looked up too', 'C70/C72', '',
  (T, '.filter fun x => !defined.flatten.contains x)', '.filter fun _ => true)'))
m('sp_zip_rev', 'registerGeneric', 'arguments in reverse order', 'C46: parameters get their arguments', 'C46',
  (T, '(registerMember o n gm go sm so (params.zip args)', '(registerMember o n gm go sm so (params.zip args.reverse)'))
m('sp_members_first', 'registerGeneric', 'only the first member is specialised', 'C46', 'C46',
  (T, '(genericScope.entries.map Prod.fst)\n\n', '((genericScope.entries.map Prod.fst).take 1)\n\n'))
m('sp_so_kind', 'registerGeneric', 'the specialised class has no kind', 'C72', '',
  (T, '    P.update (setSpecKind so .class_)\n', ''))
m('sp_registered', 'isRegistered', 'nothing counts as registered', 'C69/C47', '',
  (T, '  pure (defs.get? name).isSome', '  pure false'))
m('sp_setbase', 'registerSubscript', 'the stored base is not changed', 'C69 would hold', 'C69',
  (T, '  P.update (setBase generic i (.subscript value slice load))\n', ''))
m('sp_sub_table', 'registerSubscript', 'bases are not specialised', 'C66/C69', 'C66',
  (T, '  let slice ← P.lift (specialize table slice)\n  P.update', '  P.update'))
m('sp_sub_parent', 'registerSubscript', 'bases are looked up in the deriving module', 'C66/C69', '',
  (T, 'let g ← resolveNow n generic.1 generic.2.dropLast path', 'let g ← resolveNow n cm generic.2.dropLast path'))
m('sp_sub_args', 'registerSubscript', 'bases get no arguments', 'C66/C72', '',
  (T, '    registerGeneric o n g.1 g.2 cm [name] params (unpack slice)\n    pure (specPath, [name])', '    registerGeneric o n g.1 g.2 cm [name] params []\n    pure (specPath, [name])'))
m('sp_bb_module', 'baseBasePath', 'plain bases are looked up in the deriving module', 'C66', 'C66',
  (T, '    resolveNow n generic.1 [] path\n', '    resolveNow n cm [] path\n'))
m('sp_bb_super', 'registerBaseBase', 'superclasses are not recorded', 'C66', 'C66',
  (T, '  P.update (addSuperclass specPath [name] q)', '  pure ()'))
m('sp_new_bases', 'registerNew', 'only the first base is recorded', 'C66', 'C66',
  (T, 'genericBases.zipIdx', '(genericBases.zipIdx.take 1)'))
m('sp_new_args', 'registerNew', 'members are specialised with the whole slice', 'C46/C72', '',
  (T, '  registerGeneric o n g.1 g.2 cm [name] params (unpack slice)\n  let s ← P.get', '  registerGeneric o n g.1 g.2 cm [name] params [slice]\n  let s ← P.get'))
m('sp_new_table', 'registerNew', 'bases are specialised with the whole slice', 'C66', 'C66',
  (T, '(params.zip (unpack slice))) genericBases', '(params.zip [slice])) genericBases'))
m('sp_base_plain', 'registerBase', 'generic bases are recorded unspecialised', 'C46/C72', '',
  (T, '      registerNew o rep n name value slice cm co\n      pure (specPath, [name])', '      registerNew o rep n name value slice cm co\n      let path ← P.lift (toPath value)\n      resolveNow n cm co.dropLast path'))
m('sp_base_parent', 'registerBase', 'bases are looked up in the class itself', 'C66/C72', '',
  (T, '  | base => do\n    let path ← P.lift (toPath base)\n    resolveNow n cm co.dropLast path', '  | base => do\n    let path ← P.lift (toPath base)\n    resolveNow n cm co path'))
m('sp_process_super', 'processBase', 'superclasses of classes are not recorded', 'C66/C72', 'C66',
  (T, '    P.update (addSuperclass cls.1 cls.2 q)', '    pure ()'))
m('sp_process_first', 'processClass', 'only the first base counts', 'C66/C72', '',
  (T, '(List.range bases.length)', '(List.range (min 1 bases.length))'))
m('sp_process_some', 'processBases', 'the last class is skipped', 'C66/C72', '',
  (T, '(s.classesBases.map Prod.fst)\n', '((s.classesBases.map Prod.fst).dropLast)\n'))
m('sp_open', 'openSpecializations', 'nothing is checked', 'C71: nothing read is lost', '',
  (T, '  if (s.nodes.lookup specPath).isSome then P.fail .assertionError\n  else if (s.definitions', '  if (s.definitions'))
m('sp_aside', 'setSpecNodes', 'nodes are filed under builtins', 'C71', 'C71',
  (T, '{ s with nodes := dictUpdate s.nodes specPath [] (dictSet · path nodes) }', '{ s with nodes := dictUpdate s.nodes builtinsPath [] (dictSet · path nodes) }'))
m('sp_result_kinds', 'parseStubs', 'the tables lack the kinds', 'C72: tables are complete', '',
  (T, 'rawAstNodes := s.nodes, nodesKinds := s.kinds }', 'rawAstNodes := s.nodes, nodesKinds := [] }'))
m('sp_names_ann', 'toNames', 'annotated assignments bind no name', 'C70', '',
  (T, '  | .annAssign target _ _ => targetNames target', '  | .annAssign _ _ _ => .ok []'))
m('sp_exprs_returns', 'FunctionDef.exprs', 'names in the returned annotation are not recorded', 'C70', 'C70',
  (T, '++ f.args.defaults ++ f.decorators ++ f.returns.toList\n\n/-- The outermost expressions in a stored', '++ f.args.defaults ++ f.decorators\n\n/-- The outermost expressions in a stored'))
m('sp_args_names', 'argsNames', 'nested names of the arguments are not seen', 'C70', 'C70',
  (T, '  (args.flatMap fun e => e :: e.descendants).filterMap Expr.dependencyName\n\n/-- `_register', '  args.filterMap Expr.dependencyName\n\n/-- `_register'))
m('tp_again', 'registerBase', 'classes are specialised again for every base', 'C72: processing succeeds', 'C72',
  (T, '    let registered ← isRegistered name\n    if registered then pure (specPath, [name])\n    else do\n      registerNew', '    let registered ← isRegistered name\n    if false && registered then pure (specPath, [name])\n    else do\n      registerNew'))
m('tp_sub_parent', 'registerSubscript', 'bases of nested generic classes are looked for at the top', 'C72', 'C72',
  (T, 'let g ← resolveNow n generic.1 generic.2.dropLast path', 'let g ← resolveNow n generic.1 [] path'))
m('tp_dep_own', 'registerDependency', 'names of arguments are looked for in the module of the generic class', 'C70/C72', 'C70 C72',
  (T, '(if argsNames.contains name then sm else gm)', '(if argsNames.contains name then gm else gm)'))
m('tp_kind_so', 'registerMember', 'the kind is looked for under the new name', 'C46/C72', 'C46 C72',
  (T, 'let kind ← P.lift (itemOf kinds (go ++ [name]))', 'let kind ← P.lift (itemOf kinds (so ++ [name]))'))
m('tp_order_some', 'registerMember', 'only the first name is recorded', 'C70', 'C70',
  (T, '    (o.order ((dedup (newNodes.flatMap Stmt.loadedNames)).filter fun x =>\n      !defined.flatten.contains x))', '    ((o.order ((dedup (newNodes.flatMap Stmt.loadedNames)).filter fun x =>\n      !defined.flatten.contains x)).take 1)'))
m('tp_defined', 'registerMember', 'names the members define are looked for too', 'C72', 'C72',
  (T, '    (o.order ((dedup (newNodes.flatMap Stmt.loadedNames)).filter fun x =>\n      !defined.flatten.contains x))', '    (o.order ((dedup (newNodes.flatMap Stmt.loadedNames)).filter fun x =>\n      !defined.flatten.contains x || true))'))
m('tp_assert', 'registerNew', 'the check fails when there are superclasses at all', 'C72', 'C72',
  (T, 'if (((s.superclasses.lookup specPath).getD []).lookup [name]).isSome then', 'if (s.superclasses.lookup specPath).isSome then'))
m('tp_generics', 'registerNew', 'parameters are looked for under the derived class', 'C72', 'C66 C72',
  (T, '  let g ← resolveNow n cm co.dropLast path\n  let params ← P.item ParseState.generics g', '  let g ← resolveNow n cm co.dropLast path\n  let params ← P.item ParseState.generics (cm, co)'))
m('tp_union', 'opIdentifier', 'unions have no identifier', 'C72', '',
  (T, '  else if op = "BitOr" then .ok "bitor"\n', ''))
m('tp_assign', 'toNames', 'assignments are not supported', 'C72', 'C72',
  (T, '  | .assign targets _ => do\n    let names ← mapExcept targetNames targets\n    return names.flatten', '  | .assign _ _ => .error (.typeError "to_names")'))
