MUTANTS = []


def m(name, definition, edit, claim, expect, *edits):
    MUTANTS.append(dict(name=name, definition=definition, edit=edit, claim=claim,
                        expect=expect.split(), edits=list(edits)))


C = 'Catalog'
I = 'Index'
S = 'Signatures'
m('cat_attr_none', 'pathFromAttr', 'None is taken for the empty path', 'C97: AssertionError', 'C97_fails',
  (C, "  | .text value => .ok (pathFromString value)\n  | _ =>", "  | .text value => .ok (pathFromString value)\n  | .none => .ok []\n  | _ =>"))
m('cat_spec', 'moduleName', '__name__ is preferred to __spec__.name', 'C97: own module', 'C97_named',
  (C, "  | some specName => specName", "  | some _ => name"))
m('cat_type', 'qualifiedPathFrom', 'builtin class methods are named as instances', 'C97', 'C97_named C64_refuted',
  (C, '''    | .type module_ => do
      let m ← pathFromAttr module_
      return (m, pathFromString qualname)
''', '''    | .type _ => .ok ([], [])
'''))
m('cat_builtin_none', 'qualifiedPathFrom', 'builtins without __self__ get no name', 'C97 (not about these)', '',
  (C, "    | .none => .ok ([], pathFromString qualname)\n    | .instance", "    | .none => .ok ([], [])\n    | .instance"))
m('cat_builtin_instance', 'qualifiedPathFrom', 'builtins bound to instances are named', 'C97/C57', 'C57',
  (C, "    | .instance => .ok ([], [])", "    | .instance => .ok ([], pathFromString qualname)"))
m('cat_function_none', 'qualifiedPathFrom', 'functions without a module raise', 'C97: functions without module aside', 'C97_fails',
  (C, '''    | .none => .ok ([], pathFromString qualname)
    | _ => do
      let m''', '''    | .none => .error .assertionError
    | _ => do
      let m'''))
m('cat_function_name', 'qualifiedPathFrom', 'functions lose the enclosing classes', 'C97', 'C97_named C99',
  (C, '''    | _ => do
      let m ← pathFromAttr module_
      return (m, pathFromString qualname)''', '''    | _ => do
      let m ← pathFromAttr module_
      return (m, (pathFromString qualname).drop ((pathFromString qualname).length - 1))'''))
m('cat_cls_name', 'qualifiedPathFrom', 'classes keep the dots of their qualname', 'C97', 'C97_named',
  (C, '''  | .cls module_ qualname => do
    let m ← pathFromAttr module_
    return (m, pathFromString qualname)''', '''  | .cls module_ qualname => do
    let m ← pathFromAttr module_
    return (m, [qualname])'''))
m('cat_descriptor', 'qualifiedPathFrom', 'descriptors are not named', 'C97', 'C97_named',
  (C, '''  | .descriptor ownerModule qualname => do
    let m ← pathFromAttr ownerModule
    return (m, pathFromString qualname)''', '''  | .descriptor _ _ => .ok ([], [])'''))
m('cat_other', 'qualifiedPathFrom', 'other objects raise', 'C97/C98: only objects with an odd module', 'C97_fails C98_fails',
  (C, "  | .other => .ok ([], [])", "  | .other => .error .assertionError"))
m('cat_error', 'pathFromAttr', 'TypeError instead of AssertionError', 'C97', 'C97_fails',
  (C, "  | _ => .error .assertionError", "  | _ => .error (.typeError \"path\")"))
m('idx_skip_named', 'indexEntry', 'objects without a module are skipped, not those without a name', 'C57_named/C73', 'C57 C73',
  (I, "      if q.2.isEmpty then .ok paths else", "      if q.1.isEmpty then .ok paths else"))
m('idx_unnamed', 'indexEntry', 'objects without a name are listed', 'C57_named', 'C57_named',
  (I, "      if q.2.isEmpty then .ok paths else .ok", "      .ok"))
m('idx_error_skip', 'indexEntry', 'errors end the loop silently', 'C98/C73: everything is listed', 'C73 C98_own_place',
  (I, '''  | .other _ =>
    match W.qualified entry.2 with
    | .error e => .error e''', '''  | .other _ =>
    match W.qualified entry.2 with
    | .error _ => .ok []'''))
m('idx_location', 'indexEntry', 'the location of a nested object lacks its parents', 'C57/C98', 'C57 C98_own_place',
  (I, "else .ok (addLocation paths q (m, parent ++ [entry.1]))", "else .ok (addLocation paths q (m, [entry.1]))"))
m('idx_overwrite', 'addLocation', 'a later place replaces the earlier ones', 'C73/C98', 'C73 C98_own_place',
  (I, "dictUpdate d q.2 [] (· ++ [location])", "dictUpdate d q.2 [] (fun _ => [location])"))
m('idx_first', 'addLocation', 'only the first place is kept', 'C73/C98', 'C73 C98_own_place',
  (I, "dictUpdate d q.2 [] (· ++ [location])", "dictUpdate d q.2 [location] (fun x => x)"))
m('idx_visited', 'indexEntry', 'visited classes are not skipped', 'C57: termination', 'C57_terminates',
  (I, "    if visited.contains id then .ok paths\n    else\n", "    if false then .ok paths\n    else\n"))
m('idx_fail_module', 'indexModule', 'a module that cannot be imported empties the index', 'C73', 'C73',
  (I, "  | none => .ok paths\n  | some namespace_ => indexNamespace", "  | none => .ok []\n  | some namespace_ => indexNamespace"))
m('cand_unlisted', 'candidatePaths', 'objects that are not listed get no candidates', 'C84/C60', 'C84',
  (S, "    else .ok (if m.isEmpty then [] else [(m, object)])", "    else .ok []"))
m('cand_unlisted_nomodule', 'candidatePaths', 'objects without a module are candidates', 'C64_class/C60', 'C64_class_partial',
  (S, "    else .ok (if m.isEmpty then [] else [(m, object)])", "    else .ok [(m, object)]"))
m('cand_all', 'candidatePaths', 'the places are not compared with the object', 'C84', 'C84',
  (S, "  | some paths => .ok (paths.filter (R.has value))", "  | some paths => .ok paths"))
m('cand_none', 'candidatePaths', 'the comparison is inverted', 'C84, C99', 'C84 C99',
  (S, "  | some paths => .ok (paths.filter (R.has value))", "  | some paths => .ok (paths.filter (fun p => !R.has value p))"))
m('cand_append', 'candidatePaths', 'the own path is a candidate besides the listed ones', 'C84', 'C84',
  (S, "  | some paths => .ok (paths.filter (R.has value))", "  | some paths => .ok ((m, object) :: paths.filter (R.has value))"))
m('sig2_builtin_instance', 'fromCallable', 'builtins bound to instances are looked up themselves', 'C64', 'C64',
  (S, '''      | .none | .module _ _ | .type _ => fromFn R (.ofBuiltin owner qualname obj)
      | .instance self attr => fromInstance R self attr) (fromInspect raw)''', '''      | .none | .module _ _ | .type _ => fromFn R (.ofBuiltin owner qualname obj)
      | .instance _ _ => fromFn R (.ofBuiltin owner qualname obj)) (fromInspect raw)'''))
m('sig2_method_instance', 'fromCallable', 'bound methods are looked up themselves', 'C64', 'C64',
  (S, '''      | none => fromFn R (.ofMethod obj)
      | some (self, attr) => fromInstance R self attr) (fromInspect raw)''', '''      | none => fromFn R (.ofMethod obj)
      | some _ => fromFn R (.ofMethod obj)) (fromInspect raw)'''))
m('sig2_wrapper', 'fromCallable', 'method wrappers have no fallback', 'C31', 'C31',
  (S, "    | some (self, attr) => orElse (fromInstance R self attr) (fromInspect raw)\n  | .descriptor", "    | some (self, attr) => fromInstance R self attr\n  | .descriptor"))
m('sig2_builtin_type', 'fromCallable', 'builtin class methods lose their class', 'C64_refuted (the repaired code)', 'C64_refuted',
  (S, '''      | .none | .module _ _ | .type _ => fromFn R (.ofBuiltin owner qualname obj)
      | .instance self''', '''      | .none | .module _ _ => fromFn R (.ofBuiltin owner qualname obj)
      | .type _ => do
        let signature ← fromFn R (.ofBuiltin owner qualname obj)
        signature.bind [obj] []
      | .instance self'''))
m('sig2_descriptor', 'fromCallable', 'descriptors are taken from inspect', 'C29/C99', 'C99 C29',
  (S, "  | .descriptor l raw => orElse (fromFn R (.ofDescriptor l)) (fromInspect raw)", "  | .descriptor _ raw => fromInspect raw"))
m('sig2_own', 'toQualifiedPaths', 'the last path is asked for its kind', 'C60/C30', '',
  (S, "    if kind == .class_ then\n      let q ← resolveBuilder R paths", "    if kind != .class_ then\n      let q ← resolveBuilder R paths"))
m('sig2_init', 'builderSearch', 'a class without own constructor uses that of object at once', 'C30', 'C30',
  (S, "        | some bases => firstHit (builderSearch R object n) bases", "        | some _ => .ok none"))
