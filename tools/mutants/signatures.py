MUTANTS = []


def m(name, definition, edit, claim, expect, *edits):
    MUTANTS.append(dict(name=name, definition=definition, edit=edit, claim=claim,
                        expect=expect.split(), edits=list(edits)))


S = 'Signatures'
m('sig_raw_default', 'paramFromRaw', 'the default is dropped', 'C24: defaults are kept', 'C24',
  (S, '  | some default => OptionalParameter.new annotation (.kind raw.kind) raw.name default\n\n/-- `_from_raw_signature`',
   '  | some _ => OptionalParameter.new annotation (.kind raw.kind) raw.name\n\n/-- `_from_raw_signature`'))
m('sig_raw_kw', 'paramFromRaw', '**kwargs is made required', 'C24: never raises', 'C24',
  (S, '''  | none =>
    if raw.kind == .variadicPositional || raw.kind == .variadicKeyword then''', '''  | none =>
    if raw.kind == .variadicPositional then'''))
m('sig_raw_optional', 'paramFromRaw', 'parameters without default are made optional', 'C24: requiredness is kept', 'C24',
  (S, '''    else RequiredParameter.new annotation (.kind raw.kind) raw.name
''', '''    else OptionalParameter.new annotation (.kind raw.kind) raw.name
'''))
m('sig_raw_returns', 'fromRawSignature', 'the return annotation is dropped', 'C24: same signature', 'C24',
  (S, 'PlainSig.new parameters (value.returns.getD anyObj)', 'PlainSig.new parameters anyObj'))
m('sig_raw_annotation', 'paramFromRaw', 'annotations are dropped', 'C24: same signature', 'C24',
  (S, 'let annotation := raw.annotation.getD anyObj\n', 'let annotation := anyObj\n'))
m('sig_ellipsis', 'paramFromNode', 'the default ... is kept as a value', 'C25: ... means optional without a known default', 'C25',
  (S, 'if default.isEllipsis then OptionalParameter.new annotation (.kind kind) node.name\n    else ', ''))
m('sig_align', 'toPositionalParameters', 'defaults are attached to the first parameters', 'C25', 'C25',
  (S, '(zipLongest a.args.reverse a.defaults.reverse).reverse', '(zipLongest a.args a.defaults)'))
m('sig_align2', 'toPositionalParameters', 'defaults not reversed', 'C25', 'C25',
  (S, '(zipLongest a.args.reverse a.defaults.reverse).reverse', '(zipLongest a.args.reverse a.defaults).reverse'))
m('sig_kwzip', 'toKeywordParameters', 'keyword defaults in reverse', 'C25', 'C25',
  (S, '(a.kwonlyargs.zip a.kwDefaults)', '(a.kwonlyargs.zip a.kwDefaults.reverse)'))
m('sig_kwkind', 'toKeywordParameters', 'keyword-only parameters become positional-or-keyword', 'C25/C26/C27', 'C27 C26',
  (S, 'paramFromNode ev pd.1 pd.2 .keywordOnly)', 'paramFromNode ev pd.1 pd.2 .positionalOrKeyword)'))
m('sig_poskind', 'toPositionalParameters', 'positional parameters positional-or-keyword', 'C25 (C27 stays true)', 'C25',
  (S, 'paramFromNode ev node pd.2 .positionalOnly)', 'paramFromNode ev node pd.2 .positionalOrKeyword)'))
m('sig_order', 'declaredParameters', 'keyword parameters before *args', 'C26', 'C26',
  (S, 'return positionals ++ varPositional ++ keywords ++ varKeyword', 'return positionals ++ keywords ++ varPositional ++ varKeyword'))
m('sig_nokw', 'declaredParameters', '**kwargs is forgotten', 'C62: positional calls of the function', 'C25 C62',
  (S, 'return positionals ++ varPositional ++ keywords ++ varKeyword', 'return positionals ++ varPositional ++ keywords'))
m('sig_type_first', 'parametersFrom', 'constructors keep their first parameter', 'C25/C62', 'C25',
  (S, '    | _ :: result => .ok result\n  else', '    | p :: result => .ok (p :: result)\n  else'))
m('sig_classmethod', 'parametersFrom', 'classmethods: annotation Self', 'C25', 'C25',
  (S, 'replaceFirst typeSelfObj result', 'replaceFirst selfObj result'))
m('sig_first_optional', 'replaceFirst', 'the first parameter is dropped', 'C25/C64', 'C25',
  (S, 'return p :: ps\n\n/-- `_parameters_from`', 'return ps\n\n/-- `_parameters_from`'))
m('sig_kinds', 'parametersFrom', 'methods not recognised', 'C25: first parameter of methods', 'C25',
  (S, 'if kinds.lookup parent == some .class_ then replaceFirst selfObj result', 'if kinds.lookup parent == some .class_ && false then replaceFirst selfObj result'))
m('sig_isclassmethod', 'isClassmethod', 'staticmethod taken for classmethod', 'C25', 'C25',
  (S, '.ok (q == (builtinsPath, ["classmethod"]))', '.ok (q == (builtinsPath, ["staticmethod"]))'))
m('sig_returns_init', 'returnsFrom', 'constructors return None', 'C25/C30', 'C30',
  (S, 'if c.isType && f.name == "__init__" then .ok selfObj\n  else', 'if c.isType && f.name == "__init__" then .ok (.atom .none)\n  else'))
m('sig_returns', 'returnsFrom', 'the annotation is not evaluated', 'C25', 'C25',
  (S, '    | some e => R.ev m parent e\n\n/-- `_from_statement_node` for', '    | some _ => .ok anyObj\n\n/-- `_from_statement_node` for'))
m('sig_load_first', 'loadAstNodes', 'only the first overload is used', 'C29', 'C29',
  (S, '    | some nodes => .ok nodes\n\n/-- `d[key]`', '    | some (node :: _) => .ok [node]\n\n/-- `d[key]`'))
m('sig_load_reverse', 'loadAstNodes', 'overloads reversed', 'C29', 'C29',
  (S, '    | some nodes => .ok nodes\n\n/-- `d[key]`', '    | some nodes => .ok nodes.reverse\n\n/-- `d[key]`'))
m('sig_load_missing', 'loadAstNodes', 'missing module raises KeyError', 'C31', 'C31',
  (S, '''  match R.stubs.rawAstNodes.lookup m with
  | none => .error .signatureNotFound
  | some nodes =>''', '''  match R.stubs.rawAstNodes.lookup m with
  | none => .error .keyError
  | some nodes =>'''))
m('sig_load_missing_object', 'loadAstNodes', 'missing object raises KeyError', 'C31', 'C31',
  (S, '''    match nodes.lookup object with
    | none => .error .signatureNotFound
    | some [] =>''', '''    match nodes.lookup object with
    | none => .error .keyError
    | some [] =>'''))
m('sig_callable_item', 'fromCallableItem', 'all arguments of Callable[[...], R] are called _0', 'C63: legal / C31', 'C31',
  (S, '("_" ++ toString ei.2)) elts.zipIdx', '("_0")) elts.zipIdx'))
m('sig_bound', 'fromExpression', 'constraints of type variables include the name', 'C31 fallback', 'C31',
  (S, 'mapExcept (fun e => fromExpression R n e c m parent) (args.drop 1)', 'mapExcept (fun e => fromExpression R n e c m parent) args'))
m('sig_named_nobind', 'fromNamed', 'the instance is not bound to __call__', 'callable instances', 'C63',
  (S, 'fromSignatures bound\n  else', 'fromSignatures signatures\n  else'))
m('sig_sorted', 'sortedSet', 'duplicates are kept', 'C60', 'C60',
  (S, '    else if q == x then x :: xs\n', ''))
m('sig_unsorted', 'insertSorted', 'not sorted', 'C60', 'C60',
  (S, '    if qpathLt q x then q :: x :: xs\n    else if', '    if'))
m('sig_tryresolve', 'tryResolve', 'unresolvable candidates are kept', 'C60: each resolves to itself', 'C60',
  (S, '| .error .objectNotFound => .ok ([], [])', '| .error .objectNotFound => .ok q'))
m('sig_tryresolve_err', 'tryResolve', 'ObjectNotFound escapes', 'C31', 'C31',
  (S, '| .error .objectNotFound => .ok ([], [])\n  | r => r', '| r => r'))
m('sig_candidates', 'candidatePaths', 'candidates are not compared with the callable', 'C60/C31 ...', 'C60',
  (S, '.ok (paths.filter (R.has value))', '.ok paths'))
m('sig_filter', 'resolveQualifiedPaths', 'empty module paths are kept', 'C60', 'C60',
  (S, 'resolved.filter (fun q => !q.1.isEmpty && !q.2.isEmpty)', 'resolved.filter (fun q => !q.1.isEmpty || q.2.isEmpty)'))
m('sig_new_first', 'builderSearch', '__new__ preferred to __init__', 'C30', 'C30',
  (S, '''      if (annotations.lookup (object ++ ["__init__"])).isSome then
        .ok (some (bm, object ++ ["__init__"]))
      else if (annotations.lookup (object ++ ["__new__"])).isSome then
        .ok (some (bm, object ++ ["__new__"]))
''', '''      if (annotations.lookup (object ++ ["__new__"])).isSome then
        .ok (some (bm, object ++ ["__new__"]))
      else if (annotations.lookup (object ++ ["__init__"])).isSome then
        .ok (some (bm, object ++ ["__init__"]))
'''))
m('sig_bases_reverse', 'builderSearch', 'bases searched from the last', 'C30', 'C30',
  (S, 'firstHit (builderSearch R object n) bases', 'firstHit (builderSearch R object n) bases.reverse'))
m('sig_object', 'classBuilder', 'object.__init__ as the fallback', 'C30', 'C30',
  (S, '(builtinsPath, ["object", "__new__"])', '(builtinsPath, ["object", "__init__"])'))
m('sig_builder_first', 'resolveBuilder', 'the first candidate is taken', 'C30', 'C30',
  (S, '  | [q] => return q\n  | candidates =>\n', '  | q :: _ => return q\n  | candidates =>\n'))
m('sig_builder_object', 'resolveBuilder', "object's constructor wins", 'C30', 'C30',
  (S, '    if candidates.contains objectBuilder then\n', '    if candidates.contains objectBuilder then return objectBuilder else if candidates.contains objectBuilder then\n'))
m('sig_toqpaths', 'toQualifiedPaths', 'classes among the candidates are not replaced by builders', 'C31/C29', '',
  (S, '    if kind == .class_ then\n      let q ← resolveBuilder R paths\n      return [q]\n    else return paths', '    if kind == .class_ && false then\n      let q ← resolveBuilder R paths\n      return [q]\n    else return paths'))
m('sig_paths_stop', 'fromPaths', 'the search stops at the first path without a signature', 'C29/C31: the other paths are tried', 'C31',
  (S, '      | .error .signatureNotFound => fromPaths R value paths\n', '      | .error .signatureNotFound => .error .signatureNotFound\n'))
m('sig_paths_parent', 'fromPaths', 'the parent path is lost', 'C29', 'C29',
  (S, 'fromStatement R R.depth node value m object.dropLast) nodes with', 'fromStatement R R.depth node value m []) nodes with'))
m('sig_paths_head', 'fromPaths', 'only the first overload is returned', 'C29', 'C29',
  (S, '      | .ok signatures => fromSignatures signatures\n\n/-- `_from_callable`', '      | .ok signatures => fromSignatures (signatures.take 1)\n\n/-- `_from_callable`'))
m('sig_fallback', 'orElse', 'every error falls back', 'C31 refuted: AttributeError leaks', 'C31_refuted',
  (S, '  | .error .signatureNotFound => fallback\n  | r => r', '  | .error _ => fallback\n  | r => r'))
m('sig_nofallback', 'orElse', 'no fallback', 'C31', 'C31',
  (S, '  | .error .signatureNotFound => fallback\n  | r => r', '  | r => r'))
m('sig_instance_nobind', 'fromInstance', 'self is not bound', 'C64', 'C64',
  (S, '  let signature ← fromFn R attr\n  signature.bind [self] []', '  let signature ← fromFn R attr\n  signature.bind [] []'))
m('sig_cls_self', 'fromCallable', 'fallback for classes keeps the annotation', 'C31', 'C31',
  (S, 'fromRawSignature { raw with returns := some selfObj })', 'fromRawSignature raw)'))
m('sig_partial_args', 'fromCallable', 'keywords of partials are lost', 'C28', 'C28',
  (S, '    signature.bind args keywords\n', '    signature.bind args []\n'))
m('sig_partial_noargs', 'fromCallable', 'positional arguments of partials are lost', 'C28', 'C28',
  (S, '    signature.bind args keywords\n', '    signature.bind [] keywords\n'))
m('sig_builtin_instance', 'fromCallable', 'builtins bound to instances keep self', 'C64', 'C64',
  (S, '''      | .none | .module | .type => fromFn R f
      | .instance self attr => fromInstance R self attr) (fromInspect raw)''', '''      | .none | .module | .type => fromFn R f
      | .instance _ _ => fromFn R f) (fromInspect raw)'''))
m('sig_method_instance', 'fromCallable', 'methods keep self', 'C64', 'C64',
  (S, '''      | none => fromFn R f
      | some (self, attr) => fromInstance R self attr) (fromInspect raw)''', '''      | none => fromFn R f
      | some _ => fromFn R f) (fromInspect raw)'''))
m('sig_class_all', 'fromClass', 'a class found in several places uses the first', 'C30', 'C30',
  (S, '    let q ← resolveBuilder R paths\n    let nodes ← loadAstNodes', '    let q ← resolveBuilder R (paths.take 1)\n    let nodes ← loadAstNodes'))
