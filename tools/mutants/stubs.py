MUTANTS = []


def m(name, definition, edit, claim, expect, *edits):
    MUTANTS.append(dict(name=name, definition=definition, edit=edit, claim=claim,
                        expect=expect.split(), edits=list(edits)))


T = 'Stubs'
m('st_children_kw', 'Expr.children', 'values of keyword arguments are not visited', 'C49: every descendant is yielded', 'C49',
  (T, '  | .call func args keywords => func :: args ++ keywords.map Prod.snd\n  | .constant _ => []\n  | .binOp left _ right => [left, right]\n  | .other',
   '  | .call func args _ => func :: args\n  | .constant _ => []\n  | .binOp left _ right => [left, right]\n  | .other'))
m('st_children_slice', 'Expr.children', 'slices are not visited', 'C49', 'C49',
  (T, '  | .subscript value slice _ => [value, slice]', '  | .subscript value _ _ => [value]'))
m('st_queue', 'iterateQueue', 'children of children are not visited', 'C49', 'C49',
  (T, '(candidates ++ children candidate)', 'candidates'))
m('st_queue_twice', 'iterateQueue', 'children are queued twice', 'C49: exactly once', 'C49',
  (T, '(candidates ++ children candidate)', '(candidates ++ children candidate ++ children candidate)'))
m('st_dfs', 'iterateQueue', 'depth first instead of breadth first', 'C45/C49: order', '',
  (T, '(candidates ++ children candidate)', '(children candidate ++ candidates)'))
m('st_depname', 'Expr.dependencyName', 'names in store context count as dependencies', 'C41: names of a test', 'C41',
  (T, '  | .name id true => some id\n  | _ => none', '  | .name id _ => some id\n  | _ => none'))
m('st_deps_root', 'Expr.dependencies', 'the node itself counts too', 'C41', '',
  (T, 'dedup (e.descendants.filterMap', 'dedup ((e :: e.descendants).filterMap'))
m('st_dedup_last', 'dedup', 'nothing is dropped', 'C45: no parameter twice', 'C45',
  (T, '  | x :: xs => x :: (dedup xs).filter (fun y => !(y == x))', '  | x :: xs => x :: dedup xs'))
m('st_level_zero', 'toParentModulePath', 'absolute imports without module give the empty path', 'C44', 'C44',
  (T, '    | none => .error .assertionError\n    | some module => .ok module\n  else', '    | none => .ok []\n    | some module => .ok module\n  else'))
m('st_level_package', 'toParentModulePath', 'packages are treated as plain modules', 'C44', 'C44',
  (T, '(if isPackage m then 1 else 0)', '0'))
m('st_level_off', 'toParentModulePath', 'one level too few is cut', 'C44', 'C44',
  (T, '(if isPackage m then 1 else 0) - level', '(if isPackage m then 1 else 0) - (level - 1 : Nat)'))
m('st_level_module', 'toParentModulePath', 'the named module is not appended', 'C44', 'C44',
  (T, '.ok (base ++ module.getD [])', '.ok base'))
m('st_addnode', 'addNode', 'a later definition replaces the earlier ones', 'C29/C67: overloads are all kept', 'C67',
  (T, 'dictUpdate d (c.parent ++ path) [] (· ++ [node])', 'dictUpdate d (c.parent ++ path) [] (fun _ => [node])'))
m('st_addnode_front', 'addNode', 'definitions in reverse order', 'C29: declaration order', 'C67',
  (T, 'dictUpdate d (c.parent ++ path) [] (· ++ [node])', 'dictUpdate d (c.parent ++ path) [] (node :: ·)'))
m('st_addnode_parent', 'addNode', 'nodes of classes are filed at the top of the module', 'C40/C67', 'C67',
  (T, 'dictUpdate d (c.parent ++ path) [] (· ++ [node])', 'dictUpdate d path [] (· ++ [node])'))
m('st_addkind_parent', 'addKind', 'kinds of classes are filed at the top of the module', 'C40', 'C40',
  (T, 'dictSet d (c.parent ++ path) kind', 'dictSet d path kind'))
m('st_adddef_none', 'visitFunctionDef', 'functions are not defined in the scope', 'C40', 'C40',
  (T, '(if f.isAsync then .asyncFunction else .function))\n  P.update (addDefinition c [f.name])', '(if f.isAsync then .asyncFunction else .function))'))
m('st_addref_parent', 'addReference', 'aliases are filed under their class', 'C43 would hold', 'C43',
  (T, '(fun d => dictSet d path referent)', '(fun d => dictSet d (c.parent ++ path) referent)'))
m('st_addref_keep', 'addReference', 'the first reference wins', 'C42/C78: the last import counts', '',
  (T, '(fun d => dictSet d path referent)', '(fun d => if (d.lookup path).isSome then d else dictSet d path referent)'))
m('st_addsub_front', 'addSubmodule', 'star imports are searched latest first', 'C34', '',
  (T, 'dictUpdate s.submodules c.module [] (· ++ [m])', 'dictUpdate s.submodules c.module [] (m :: ·)'))
m('st_addbase', 'addBase', 'only the last base is kept', 'C37/C67', 'C67',
  (T, 'dictUpdate s.classesBases cls [] (· ++ [base])', 'dictUpdate s.classesBases cls [] (fun _ => [base])'))
m('st_unpack', 'unpack', 'tuples of type arguments are not unpacked', 'C45', 'C45',
  (T, '  | .tuple elts _ => elts\n  | e => [e]', '  | e => [e]'))
m('st_collect_nested', 'collectStep', 'arguments of nested subscripts are skipped', 'C45', 'C45',
  (T, 'collectStep candidates (slice :: queue) args\n', 'collectStep candidates queue args\n'))
m('st_collect_order', 'collectTypeArgs', 'arguments in reverse order', 'C45', 'C45',
  (T, '(collectLoop (Expr.subscript value slice load).size [slice] []).reverse', '(collectLoop (Expr.subscript value slice load).size [slice] [])'))
m('st_nt_fields', 'annotatedFields', 'only fields before the first method', 'C48', 'C48',
  (T, '  | _ :: body => annotatedFields body', '  | _ :: _ => []'))
m('st_nt_defaults', 'namedTupleConstructor', 'fields lose their defaults', 'C48', 'C48',
  (T, 'defaults := (annotatedFields body).filterMap (fun f => f.2.2) },', 'defaults := [] },'))
m('st_nt_cls', 'namedTupleConstructor', 'no cls parameter', 'C48', 'C48',
  (T, '''args := ⟨"cls", none⟩ :: args,''', 'args := args,'))
m('st_nt_returns', 'namedTupleConstructor', 'constructor without return annotation', 'C48', 'C48',
  (T, 'returns := some (.name name true) }', 'returns := none }'))
m('st_import_prefixes', 'importBindings', 'import a.b binds only a.b', 'C42', 'C42',
  (T, '''    (List.range (split alias.name).length).map
      (fun i => ((split alias.name).take (i + 1), (split alias.name).take (i + 1), []))''',
   '''    [(split alias.name, split alias.name, [])]'''))
m('st_import_as', 'importBindings', 'import a.b as c binds the package a', 'C42', 'C42',
  (T, '  | some asname => [([asname], split alias.name, [])]', '  | some asname => [([asname], (split alias.name).take 1, [])]'))
m('st_resolve_parent', 'resolveIn', 'the enclosing class is not searched', 'C32/C34', 'C34',
  (T, 'if scopeContains defs (parent ++ [head]) then pure (m, parent ++ head :: rest)\n  else if', 'if'))
m('st_resolve_order', 'resolveIn', 'references before star imports are not searched at all', 'C34', '',
  (T, 'P.firstFound (fun sub => resolve sub [] (head :: rest)) (do', 'P.firstFound (fun sub => resolve sub [] [head]) (do'))
m('st_resolve_builtins', 'resolveIn', 'builtins are not searched', 'C34/C61', '',
  (T, '        if scopeContains builtins (head :: rest) then pure (builtinsPath, head :: rest)\n        else P.fail .objectNotFound)', '        P.fail .objectNotFound)'))
m('st_toq_define', 'toQualified', 'unknown names are not defined', 'C40/C72', '',
  (T, '    P.update (addDefinition c object)\n    pure (c.module, object))', '    pure (c.module, object))'))
m('st_typevar_any', 'isTypeVar', 'any call makes a type variable', 'C45', 'C45',
  (T, '      pure (r == typeVarPath)\n', '      pure (r == r)\n'))
m('st_typevar_none', 'isTypeVar', 'never a type variable', 'C45/C46', 'C45',
  (T, '      pure (r == typeVarPath)\n', '      pure (r != r)\n'))
m('st_base_generic', 'visitBase', 'Generic is kept as a base', 'C37/C72', '',
  (T, '      if q == genericPath || q == protocolPath then pure typeVars', '      if q == protocolPath then pure typeVars'))
m('st_base_protocol', 'visitBase', 'a plain Protocol is kept as a base', 'C37', '',
  (T, '    else if q == protocolPath then pure []\n    else if q', '    else if q'))
m('st_base_nt', 'visitBase', 'named tuples get no constructor', 'C48', 'C48',
  (T, '      P.update (addNode c [name] (.functionDef constructor))\n', '      let _ := constructor\n'))
m('st_base_nt_super', 'visitBase', 'named tuples are not recorded as subclasses of NamedTuple', 'C48/C37', '',
  (T, '      P.update (addSuperclass c.module (c.parent ++ [name]) q)\n', ''))
m('st_class_kind', 'visitClassHead', 'classes are not recorded as classes', 'C40/C67', 'C67',
  (T, '  P.update (addKind c [name] .class_)\n', ''))
m('st_class_generics', 'visitClassHead', 'type parameters with repetitions', 'C45', 'C45',
  (T, 'let parameters := dedup typeVars.flatten', 'let parameters := typeVars.flatten'))
m('st_class_generics_last', 'visitClassHead', 'type parameters of the first base only', 'C45', 'C45',
  (T, 'let parameters := dedup typeVars.flatten', 'let parameters := dedup (typeVars.head?.getD [])'))
m('st_ann_kind', 'visitAnnAssign', 'annotated assignments recorded as plain ones', 'C67', 'C67',
  (T, 'addKind c path .annotatedAssignment', 'addKind c path .assignment'))
m('st_ann_ref', 'visitAnnAssign', 'x: T = y is not an alias', 'C67', 'C67',
  (T, '  match value.bind toMaybePath with\n  | none =>\n    P.update (addNode c path node)', '  match (value.bind toMaybePath).filter (fun _ => false) with\n  | none =>\n    P.update (addNode c path node)'))
m('st_assign_targets', 'visitAssign', 'only the first target of a = b = ... is recorded', 'C67', 'C67',
  (T, '''      P.update (addKind c path .assignment)
      P.update (addDefinition c path)) targets''', '''      P.update (addKind c path .assignment)
      P.update (addDefinition c path)) (targets.take 1)'''))
m('st_assign_alias', 'visitAssign', 'aliases refer to themselves', 'C42/C43', 'C67',
  (T, '''    P.each (fun target => do
      let path ← P.lift (toPath target)
      P.update (addReference c path q)) targets''', '''    P.each (fun target => do
      let path ← P.lift (toPath target)
      P.update (addReference c path (c.module, path))) targets
    let _ := q'''))
m('st_async', 'visitFunctionDef', 'async functions recorded as plain ones', 'C67', 'C67',
  (T, '(if f.isAsync then .asyncFunction else .function)', '.function'))
m('st_test_place', 'evaluateTest', 'names of a test resolved at the top of the module', 'C41', '',
  (T, 'let q ← resolve c.module c.parent [name]\n    pure (name, q)) test.dependencies', 'let q ← resolve c.module [] [name]\n    pure (name, q)) test.dependencies'))
m('st_if_both', 'visit', 'both branches of an if are recorded', 'C41', 'C41',
  (T, '(if condition then body else orelse)', '(if condition then body ++ orelse else orelse)'))
m('st_if_swap', 'visit', 'the wrong branch is taken', 'C41', 'C41',
  (T, '(if condition then body else orelse)', '(if condition then orelse else body)'))
m('st_if_noelse', 'visit', 'else branches are ignored', 'C41', 'C41 C67',
  (T, '(if condition then body else orelse)', '(if condition then body else [])'))
m('st_class_body', 'visit', 'bodies of classes are not visited', 'C67', 'C67',
  (T, '      P.each (visit E n { module := c.module, parent := c.parent ++ [name] }) body\n', ''))
m('st_class_place', 'visit', 'bodies of nested classes forget the outer class', 'C40/C67', 'C67',
  (T, '{ module := c.module, parent := c.parent ++ [name] }) body', '{ module := c.module, parent := [name] }) body'))
m('st_from_star', 'visitImportFrom', 'star imports bind the name *', 'C42', 'C42',
  (T, '    if alias.name = "*" then P.update (addSubmodule c m)\n    else', '    if alias.name = "**" then P.update (addSubmodule c m)\n    else'))
m('st_from_as', 'visitImportFrom', 'from m import a as b binds a', 'C42', 'C42',
  (T, '          | some asname => [asname]) (m, pathFromString alias.name))) names', '          | some _ => pathFromString alias.name) (m, pathFromString alias.name))) names'))
m('st_from_level', 'visitImportFrom', 'the level is ignored', 'C44', 'C44 C42',
  (T, '(module.map pathFromString) level c.module)', '(module.map pathFromString) 0 c.module)'))
m('st_other', 'visit', 'statements inside with/try are skipped', 'C67', 'C67',
  (T, '    | .other _ body => P.each (visit E n c) body', '    | .other _ _ => pure ()'))
m('st_visited', 'parseScope', 'modules are parsed again every time', 'C39', 'C39',
  (T, 'if s.visited.contains m then P.item', 'if false then P.item'))
m('st_mark_late', 'parseScope', 'modules are not marked as visited', 'C39', 'C39',
  (T, '{ s with visited := m :: s.visited, reads', '{ s with reads'))
m('st_missing_source', 'parseScope', 'a missing source counts as an empty module', 'C67', 'C67',
  (T, '      | none => P.fail .sourceNotFound\n      | some body =>\n        P.update', '      | none => pure (.mk [])\n      | some body =>\n        P.update'))
m('st_reset', 'parseScope', 'tables of the module are not reset', 'C67', '',
  (T, '          nodes := dictSet s.nodes m []\n', ''))
m('st_builtins_first', 'parseAll', 'builtins are not read first', 'C34/C72', '',
  (T, '  let _ ← parseScope E n builtinsPath\n', ''))
m('st_skip_first', 'parseAll', 'the first module is skipped', 'C67', 'C67',
  (T, '    let _ ← parseScope E n m\n    pure ()) modules', '    let _ ← parseScope E n m\n    pure ()) (modules.drop 1)'))
m('st_split', 'splitDots', 'empty parts are dropped', 'C50', 'C50',
  (T, "if c == '.' then [] :: splitDots cs", "if c == '.' then splitDots cs"))
m('st_scope_add', 'Scope.add', 'inner scopes are overwritten', 'C40', 'C40',
  (T, '.mk (dictSet scope.entries part (((scope.get? part).getD (.mk [])).add path))', '.mk (dictSet scope.entries part ((Scope.mk []).add path))'))
