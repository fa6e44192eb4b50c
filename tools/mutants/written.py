"""Mutants of both models of the conversion: with and without the caches of the evaluation."""
MUTANTS = []


def m(name, definition, edit, claim, expect, *edits):
    MUTANTS.append(dict(name=name, definition=definition, edit=edit, claim=claim,
                        expect=expect.split(), edits=list(edits)))


G, T, M = 'Signatures', 'Session', 'Models'
m('w_ellipsis', 'paramFromNode, paramFromNodeS', 'the default ... is kept as a value', 'C103/C104: defaults', 'C103_function C104_method',
  (G, '    if default.isEllipsis then OptionalParameter.new annotation (.kind kind) node.name\n    else ', '    '),
  (T, '    if default.isEllipsis then Ev.lift (OptionalParameter.new annotation (.kind kind) node.name)\n    else ', '    '))
m('w_default', 'paramFromNode, paramFromNodeS', 'defaults are dropped', 'C103/C104: defaults', 'C103_function C104_method',
  (G, 'else OptionalParameter.new annotation (.kind kind) node.name default', 'else OptionalParameter.new annotation (.kind kind) node.name'),
  (T, 'else Ev.lift (OptionalParameter.new annotation (.kind kind) node.name default)', 'else Ev.lift (OptionalParameter.new annotation (.kind kind) node.name)'))
m('w_align', 'toPositionalParameters, toPositionalParametersS', 'defaults belong to the first parameters', 'C103/C104', 'C103_function C104_method',
  (G, '(zipLongest a.args.reverse a.defaults.reverse).reverse', '(zipLongest a.args a.defaults)'),
  (T, '(zipLongest a.args.reverse a.defaults.reverse).reverse', '(zipLongest a.args a.defaults)'))
m('w_kwkind', 'toKeywordParameters, toKeywordParametersS', 'keyword-only parameters can be given by position', 'C103/C104: kinds', 'C103_function C104_method',
  (G, 'paramFromNode ev pd.1 pd.2 .keywordOnly', 'paramFromNode ev pd.1 pd.2 .positionalOrKeyword'),
  (T, 'paramFromNodeS ev pd.1 pd.2 .keywordOnly', 'paramFromNodeS ev pd.1 pd.2 .positionalOrKeyword'))
m('w_nokwargs', 'declaredParameters, declaredParametersS', '**kwargs is forgotten', 'C103/C104', 'C103_function C104_method',
  (G, 'return positionals ++ varPositional ++ keywords ++ varKeyword', 'return positionals ++ varPositional ++ keywords'),
  (T, 'pure (positionals ++ varPositional ++ keywords ++ varKeyword)', 'pure (positionals ++ varPositional ++ keywords)'))
m('w_returns', 'returnsFrom, returnsFromS', 'the return annotation is always Any', 'C103/C104: return types', 'C103_function C104_method',
  (G, '    | some e => R.ev m parent e\n\n/-- `_from_statement_node` for', '    | some _ => .ok anyObj\n\n/-- `_from_statement_node` for'),
  (T, '    | some e => E m parent e\n\n/-- `_from_statement_node` for', '    | some _ => pure anyObj\n\n/-- `_from_statement_node` for'))
m('w_init_returns', 'returnsFrom, returnsFromS', 'constructors return what is annotated', 'C103: classes', 'C103_class',
  (G, '  if c.isType && f.name == "__init__" then .ok selfObj\n  else\n', ''),
  (T, '  if c.isType && f.name == "__init__" then pure selfObj\n  else\n', ''))
m('w_init_first', 'parametersFrom, adjustedParameters', 'constructors keep their first parameter', 'C103: classes', 'C103_class',
  (G, '    | _ :: result => .ok result\n  else\n    if ← anyExcept', '    | p :: result => .ok (p :: result)\n  else\n    if ← anyExcept'),
  (T, '    | _ :: result => .ok result\n  else\n    if ← anyExcept', '    | p :: result => .ok (p :: result)\n  else\n    if ← anyExcept'))
m('w_self', 'parametersFrom, adjustedParameters', 'the first parameter of methods keeps its annotation', 'C103: methods', 'C103_function',
  (G, 'if kinds.lookup parent == some .class_ then replaceFirst selfObj result', 'if kinds.lookup parent == some .class_ then .ok result'),
  (T, 'if kinds.lookup parent == some .class_ then replaceFirst selfObj result', 'if kinds.lookup parent == some .class_ then .ok result'))
m('w_bind_keep', 'fromCallable, fromCallableS', 'methods keep their first parameter', 'C104', 'C104_method',
  (G, '  let signature ← fromFn R attr\n  signature.bind [self] []', '  fromFn R attr'),
  (T, '  let signature ← fromFnS R E attr\n  Ev.lift (signature.bind [self] [])', '  fromFnS R E attr'))
m('w_new_first', 'builderSearch', '__new__ is preferred to __init__', 'C101/C103: classes with both', 'C101_class C103_class',
  (G, '''      if (annotations.lookup (object ++ ["__init__"])).isSome then
        .ok (some (bm, object ++ ["__init__"]))
      else if (annotations.lookup (object ++ ["__new__"])).isSome then
        .ok (some (bm, object ++ ["__new__"]))
''', '''      if (annotations.lookup (object ++ ["__new__"])).isSome then
        .ok (some (bm, object ++ ["__new__"]))
      else if (annotations.lookup (object ++ ["__init__"])).isSome then
        .ok (some (bm, object ++ ["__init__"]))
'''))
m('w_new_never', 'builderSearch', '__new__ is not looked for', 'C103: classes without __init__', 'C103_new',
  (G, '''      else if (annotations.lookup (object ++ ["__new__"])).isSome then
        .ok (some (bm, object ++ ["__new__"]))
''', ''))
m('w_new_self', 'returnsFrom, returnsFromS', 'classes with __new__ return Self whatever is written', 'C103: classes without __init__', 'C103_new',
  (G, 'if c.isType && f.name == "__init__" then .ok selfObj', 'if c.isType then .ok selfObj'),
  (T, 'if c.isType && f.name == "__init__" then', 'if c.isType then'))

m('wb_no_add', 'visitBase', 'plain bases are not recorded', 'C92: the bases are those written', 'C92',
  ('Stubs', '    else if q == genericPath then P.fail .assertionError\n    else\n      P.update (addBase cls base)\n      pure []', '    else if q == genericPath then P.fail .assertionError\n    else\n      pure []'))
m('wb_reversed', 'visitClassHead', 'bases are visited from the last to the first', 'C92, C116: the order of bases is the written one', 'C92',
  ('Stubs', '  let typeVars ← P.map (visitBase parse resolve c name body) bases\n', '  let typeVars ← P.map (visitBase parse resolve c name body) bases.reverse\n'))
m('wb_keeps_old', 'visitClassHead', 'a second definition of the class adds to the bases of the first', 'C92: the last definition counts', 'C92',
  ('Stubs', '  P.update (fun s => { s with classesBases := dictSet s.classesBases (c.module, c.parent ++ [name]) [] })\n', '  P.update (fun s => { s with classesBases := dictSet s.classesBases (c.module, c.parent ++ [name]) ((s.classesBases.lookup (c.module, c.parent ++ [name])).getD []) })\n'))
m('wb_add_super', 'visitBase', 'plain bases are also recorded as resolved superclasses', 'C92: each base is recorded once', 'C92',
  ('Stubs', '    else if q == genericPath then P.fail .assertionError\n    else\n      P.update (addBase cls base)\n', '    else if q == genericPath then P.fail .assertionError\n    else\n      P.update (addSuperclass c.module (c.parent ++ [name]) q)\n      P.update (addBase cls base)\n'))
m('wb_wrong_key', 'visitBase', 'bases are recorded for the surrounding class', 'C92', 'C92',
  ('Stubs', '  let cls : QPath := (c.module, c.parent ++ [name])\n  match base with', '  let cls : QPath := (c.module, [name])\n  match base with'))
