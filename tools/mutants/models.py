MUTANTS = []


def m(name, definition, edit, claim, expect, *edits):
    MUTANTS.append(dict(name=name, definition=definition, edit=edit, claim=claim,
                        expect=expect.split(), edits=list(edits)))


M = 'Models'
m('req_kinds', 'RequiredParameter.new', 'also accepts *args kind', 'C02: required parameters are never variadic', 'C02',
  (M, '[Kind.positionalOnly, .positionalOrKeyword, .keywordOnly].contains k', '[Kind.positionalOnly, .positionalOrKeyword, .keywordOnly, .variadicPositional].contains k'))
m('req_kinds2', 'RequiredParameter.new', 'keyword-only kind dropped from the accepted kinds', 'C02: keyword-only required parameters can be built', 'C02',
  (M, '[Kind.positionalOnly, .positionalOrKeyword, .keywordOnly].contains k', '[Kind.positionalOnly, .positionalOrKeyword].contains k'))
m('opt_variadic', 'OptionalParameter.new', '**kwargs with default accepted', 'C02', 'C02',
  (M, '(k == .variadicPositional || k == .variadicKeyword) && hasDefault', '(k == .variadicPositional) && hasDefault'))
m('opt_default_none', 'Obj.isNoDefault', 'None counts as no default', 'C02: has_default iff a default was given; C11', 'C02 C11_bound',
  (M, '  | .atom .noDefault => true\n  | _ => false\n\n/-- `OptionalParameter.__new__`', '  | .atom .noDefault => true\n  | .atom .none => true\n  | _ => false\n\n/-- `OptionalParameter.__new__`'))
m('kind_error', 'validateKind', 'raises ValueError instead of TypeError', 'C02: a wrong kind is a TypeError', 'C02',
  (M, '.error (.typeError "kind")', '.error (.valueError "kind")'))
m('val_names', 'PlainSig.validateRest', 'does not record the name of positional parameters', 'C01: distinct names', 'C01',
  (M, '''.error (.valueError "required after optional")
      else validateRest parameter (parameter.name :: visitedNames)''', '''.error (.valueError "required after optional")
      else validateRest parameter visitedNames'''))
m('val_order', 'PlainSig.validateRest', 'kinds compared with <=', 'C01: repeated kinds allowed', 'C01',
  (M, 'parameter.kind.toNat < prior.kind.toNat', 'parameter.kind.toNat ≤ prior.kind.toNat'))
m('val_order2', 'PlainSig.validateRest', 'order of kinds not checked', 'C01', 'C01',
  (M, 'parameter.kind.toNat < prior.kind.toNat', 'parameter.kind.toNat + 5 < prior.kind.toNat'))
m('val_req', 'PlainSig.validateRest', 'required after optional checked only for positional-or-keyword', 'C01', 'C01',
  (M, '(parameter.kind == .positionalOrKeyword || parameter.kind == .positionalOnly) then\n      if parameter.isRequired', '(parameter.kind == .positionalOrKeyword) then\n      if parameter.isRequired'))
m('val_variadic', 'PlainSig.validateRest', 'two **kwargs accepted', 'C01', 'C01',
  (M, 'else if (parameter.kind == .variadicPositional || parameter.kind == .variadicKeyword) then', 'else if (parameter.kind == .variadicPositional) then'))
m('val_first', 'PlainSig.validate', 'the name of the first parameter is not recorded', 'C01', 'C01',
  (M, 'validateRest prior [prior.name] [prior.kind] rest', 'validateRest prior [] [prior.kind] rest'))
m('val_kwreq', 'PlainSig.validateRest', 'required keyword-only after optional rejected', 'C01', 'C01',
  (M, 'if (parameter.kind == .positionalOrKeyword || parameter.kind == .positionalOnly) then\n      if parameter.isRequired', 'if (parameter.kind == .positionalOrKeyword || parameter.kind == .positionalOnly || parameter.kind == .keywordOnly) then\n      if parameter.isRequired'))
m('allset_gt', 'PlainSig.allSet', 'args.length >= positionals.length is too many', 'C06', 'C06',
  (M, '''def allSet (self : PlainSig) (args : List Obj) (kwargs : Kwargs) : Bool :=
  let positionals := byKind self.parameters .positionalOnly
    ++ byKind self.parameters .positionalOrKeyword
  let unexpectedPositional :=
    (byKind self.parameters .variadicPositional).isEmpty && decide (args.length > positionals.length)''',
   '''def allSet (self : PlainSig) (args : List Obj) (kwargs : Kwargs) : Bool :=
  let positionals := byKind self.parameters .positionalOnly
    ++ byKind self.parameters .positionalOrKeyword
  let unexpectedPositional :=
    (byKind self.parameters .variadicPositional).isEmpty && decide (args.length ≥ positionals.length)'''))
m('allset_posonly', 'PlainSig.allSet', 'left positional-only parameters not looked at', 'C06: missing positional-only accepted', 'C06',
  (M, 'allOptional restPositionalsOnly && allOptional (restKeywordsByName.map Prod.snd)', 'allOptional (restKeywordsByName.map Prod.snd)'))
m('allset_kw', 'PlainSig.allSet', 'left keyword parameters not looked at', 'C06', 'C06',
  (M, 'allOptional restPositionalsOnly && allOptional (restKeywordsByName.map Prod.snd)', 'allOptional restPositionalsOnly'))
m('allset_filter', 'PlainSig.allSet', 'given keywords not removed', 'C06', 'C06',
  (M, '(fun np => !(keys kwargs).contains np.1)', '(fun _ => true)'))
m('expects_var', 'PlainSig.expects', '*args ignored', 'C05/C08', 'C05_expects C08 C07',
  (M, '''def expects (self : PlainSig) (args : List Obj) (kwargs : Kwargs) : Bool :=
  let positionals := byKind self.parameters .positionalOnly
    ++ byKind self.parameters .positionalOrKeyword
  let unexpectedPositional :=
    (byKind self.parameters .variadicPositional).isEmpty && ''', '''def expects (self : PlainSig) (args : List Obj) (kwargs : Kwargs) : Bool :=
  let positionals := byKind self.parameters .positionalOnly
    ++ byKind self.parameters .positionalOrKeyword
  let unexpectedPositional :=
    '''))
m('expects_true', 'PlainSig.expects', 'unexpected keywords are accepted', 'C05/C08', 'C05_expects C08',
  (M, '    !unexpectedKeyword\n', '    !(unexpectedKeyword && false)\n'))
m('bindpos_drop', 'bindPositionals', 'one parameter too few dropped', 'C09, C12', 'C09_bind C12 C10_bind',
  (M, '.ok (positionals.drop args.length ++ parameters.drop positionals.length)', '.ok (positionals.drop (args.length - 1) ++ parameters.drop positionals.length)'))
m('bindpos_rest', 'bindPositionals', 'the other parameters are dropped', 'C09, C12, C04', 'C09_bind C12 C04',
  (M, '.ok (positionals.drop args.length ++ parameters.drop positionals.length)', '.ok (positionals.drop args.length)'))
m('bindpos_many', 'bindPositionals', 'too many positionals accepted', 'C05', 'C05_expects C09_bind',
  (M, 'if args.length > positionals.length && !hasVariadic then\n    .error', 'if args.length > positionals.length + 1 && !hasVariadic then\n    .error'))
m('bindpos_nocheck', 'checkPositionals', 'positional-only names not checked', 'C05: collision raises', 'C05_collision',
  (M, 'else .error (.typeError "positional passed as keyword")', 'else checkPositionals kwargs rest'))
m('bindpos_nocheck2', 'checkPositionals', 'positional-or-keyword names given twice not checked', 'C05/C09', 'C05_expects C09_bind_partial_application_no_var',
  (M, '.error (.typeError "multiple values")', 'checkPositionals kwargs rest'))
m('rebind_kind', 'rebindKeyword', 'bound parameter keeps being positional-or-keyword', 'C11', 'C11_bound',
  (M, 'OptionalParameter.new parameter.annotation (.kind .keywordOnly) parameter.name v', 'OptionalParameter.new parameter.annotation (.kind .positionalOrKeyword) parameter.name v'))
m('rebind_default', 'rebindKeyword', 'bound value dropped', 'C11', 'C11_bound',
  (M, 'OptionalParameter.new parameter.annotation (.kind .keywordOnly) parameter.name v', 'OptionalParameter.new parameter.annotation (.kind .keywordOnly) parameter.name'))
m('rebind_fixed', 'rebindKeyword', 'bound value replaces an existing default (the fix of C11)', 'C11 becomes true, its refutation must fail', 'C11_refuted',
  (M, '''      | some d =>
        OptionalParameter.new parameter.annotation (.kind .keywordOnly) parameter.name d
      | Option.none''', '''      | some d =>
        OptionalParameter.new parameter.annotation (.kind .keywordOnly) parameter.name ((kwargs.lookup parameter.name).getD d)
      | Option.none'''))
m('rebind_after', 'rebindKeyword', 'parameters after the first bound one stay positional', 'C09, C12', 'C09_bind C12',
  (M, 'else RequiredParameter.new parameter.annotation (.kind .keywordOnly) parameter.name\n  else .ok parameter', 'else .ok parameter\n  else .ok parameter'))
m('rebind_optional', 'rebindKeyword', 'unbound optional parameters keep no default', 'C12: unbound parameters keep their default', 'C12',
  (M, '''      | some d =>
        OptionalParameter.new parameter.annotation (.kind .keywordOnly) parameter.name d
      | Option.none''', '''      | some _ =>
        OptionalParameter.new parameter.annotation (.kind .keywordOnly) parameter.name
      | Option.none'''))
m('bindkw_varpos', 'bindKeywords', '*args not removed', 'C03/C09/C12', 'C03_bind C09_bind C12',
  (M, '(fun p => !(p.kind == .variadicPositional))) with', '(fun _ => true)) with'))
m('bindkw_extra', 'bindKeywords', 'unexpected keywords accepted', 'C05', 'C05_expects C09_bind',
  (M, 'if !extraNames.isEmpty && !hasVariadic then', 'if false then'))
m('bindkw_take', 'bindKeywords', 'parameters before the first bound one lost', 'C09, C12', 'C09_bind C12',
  (M, '.ok (parameters.take firstKwargIndex ++ tail)', '.ok tail'))
m('bindkw_names', 'bindKeywords', 'positional-or-keyword parameters cannot be bound by keyword', 'C05, C11', 'C05_expects',
  (M, 'def isKeywordable (p : Param) : Bool :=\n  p.kind == .positionalOrKeyword || p.kind == .keywordOnly', 'def isKeywordable (p : Param) : Bool :=\n  p.kind == .keywordOnly'))
m('bindkw_index', 'bindKeywords', 'conversion starts one parameter later', 'C11, C09', 'C11_bound C09_bind',
  (M, '((parameters.drop firstKwargIndex).filter', '((parameters.drop (firstKwargIndex + 1)).filter'),
  (M, '.ok (parameters.take firstKwargIndex ++ tail)', '.ok (parameters.take (firstKwargIndex + 1) ++ tail)'))
m('bind_returns', 'PlainSig.bind', 'return annotation lost', 'C03', 'C03_bind C04',
  (M, '| .ok ps => PlainSig.new ps self.returns\n\n/-- `Signature = Union', '| .ok ps => PlainSig.new ps anyR\n\n/-- `Signature = Union'),
  (M, '/-- `PlainSignature.bind`, `', 'def anyR : Obj := .form anyForm\n\n/-- `PlainSignature.bind`, `'))
m('bind_flag', 'PlainSig.bind', 'hasVariadic of keywords computed from *args', 'C05', 'C05_expects',
  (M, 'match bindKeywords ps kwargs (!(byKind self.parameters .variadicKeyword).isEmpty) with', 'match bindKeywords ps kwargs (!(byKind self.parameters .variadicPositional).isEmpty) with'))
m('bind_flag_late', 'PlainSig.bind', '**kwargs flag computed correctly, *args flag from the keywords', 'C05', 'C05_expects',
  (M, '(!(byKind self.parameters .variadicPositional).isEmpty) with', '(!(byKind self.parameters .variadicKeyword).isEmpty) with'))
m('ovl_min', 'OverloadedSignature.new', 'one signature suffices', 'C17: overloaded iff at least two', '',
  (M, 'if ps.length < 2 then', 'if ps.length < 1 then'))
m('ovl_empty', 'OverloadedSignature.new', 'no signature suffices', 'C17: combining nothing raises', 'C17',
  (M, 'if ps.length < 2 then', 'if false then'))
m('ovl_order', 'fromSignatures', 'reversed', 'C17, C16 order', 'C17 C16',
  (M, 'let plainSignatures := (signatures.map flattenSignature).flatten', 'let plainSignatures := (signatures.reverse.map flattenSignature).flatten'))
m('ovl_collapse', 'fromSignatures', 'single signature not collapsed', 'C17, C16', 'C17 C16',
  (M, '  | [s] => .ok (.plain s)\n  | ss => OverloadedSignature', '  | ss => OverloadedSignature'))
m('ovl_first', 'Sig.bind', 'only the first accepting overload is bound', 'C16, C18', 'C16 C18_overloaded',
  (M, '(ss.filter (fun s => s.expects args kwargs)) with', '((ss.filter (fun s => s.expects args kwargs)).take 1) with'))
m('ovl_nofilter', 'Sig.bind', 'overloads not filtered', 'C16', 'C16',
  (M, '(ss.filter (fun s => s.expects args kwargs)) with', 'ss with'))
m('ovl_allset', 'Sig.allSet', 'all overloads must accept', 'C07/C06 of overloaded signatures', 'C06_overloaded',
  (M, 'ss.any (fun s => s.allSet args kwargs)', 'ss.all (fun s => s.allSet args kwargs)'))
m('ovl_expects', 'Sig.expects', 'all overloads must accept', 'C08 / C13', 'C08_overloaded',
  (M, 'ss.any (fun s => s.expects args kwargs)', 'ss.all (fun s => s.expects args kwargs)'))
m('eq_kind', 'Param.eq', 'kinds of required parameters not compared', 'C20 (hash uses the kind)', 'C20_equal',
  (M, 'n == n\' && k == k\' && a.areEqual a\'\n', 'n == n\' && a.areEqual a\'\n'))
m('eq_default', 'Param.eq', 'defaults not compared', 'C20', 'C20_equal',
  (M, '          | some x, some y => x.areEqual y\n', '          | some _, some _ => true\n'))
m('eq_mixed', 'Param.eq', 'presence of a default not compared', 'C19 transitivity, C20', 'C19_equivalence C20_equal',
  (M, ' && d.isSome == d\'.isSome', ''))
m('eq_len', 'listEq', 'shorter list equal to a longer one', 'C19/C20', 'C19_equivalence C20_equal',
  (M, '  | [], [] => true\n  | a :: as, b :: bs => eq a b && listEq eq as bs', '  | [], _ => true\n  | a :: as, b :: bs => eq a b && listEq eq as bs'))
m('eq_returns', 'PlainSig.eq', 'return annotations not compared', 'C20', 'C20_equal',
  (M, ' && s.returns.areEqual t.returns', ''))
m('pickle_default', 'Param.newArgs', 'default not pickled', 'C21', 'C21',
  (M, '| .optional a d k n => { annotation := a, default := d, kind := k, name := n }', '| .optional a _ k n => { annotation := a, default := Option.none, kind := k, name := n }'))
m('pickle_kind', 'Param.newArgs', 'wrong kind', 'C21', 'C21',
  (M, '| .required a k n => { annotation := a, default := Option.none, kind := k, name := n }', '| .required a _ n => { annotation := a, default := Option.none, kind := .positionalOnly, name := n }'))
m('are_len', 'Obj.areEqual', 'list length not compared', 'C19', 'C19_equivalence',
  ('Objects', '| .list as, .list bs => as.length == bs.length && Obj.areEquals as bs', '| .list as, .list bs => Obj.areEquals as bs'))
m('are_union', 'Obj.areEqual', 'union members compared in one direction', 'C19 symmetry', 'C19_equivalence',
  ('Objects', 'Obj.areAllAny as r.getArgs && r.getArgs.all (fun b => Obj.areAny as b)', 'Obj.areAllAny as r.getArgs'))
m('are_name', 'Obj.areEqual', 'bound of type variables compared with the constraints dropped', 'C19/C20', 'C20_equal',
  ('Objects', '\n      && cs.length == cs\'.length && Obj.areEquals cs cs\'', '\n      && cs.length == cs\'.length'))
m('hash_kind', 'PyHash.param', 'the identity of the default is hashed (its absence is hashed like None)', 'harmless: equal parameters agree on having a default', '',
  ('Hashing', '        | none => [])\n      ++', '        | none => [some 0])\n      ++'))
m('hash_order', 'PyHash.plain', 'hash includes the number of parameters', 'harmless', '',
  ('Hashing', 'H.ofTuple [H.ofTuple (s.parameters.map H.param), H.obj s.returns]', 'H.ofTuple [H.ofTuple (s.parameters.map H.param), H.obj s.returns, some s.parameters.length]'))
m('str_slash', 'PlainSig.strParts', '/ always printed', 'C22', 'C22',
  ('Text', '++ (if positionalsOnly.isEmpty then [] else [[\'/\']])', '++ [[\'/\']]'))
m('str_star', 'PlainSig.strParts', '* printed even after *args', 'C22', 'C22',
  ('Text', '!keywordsOnly.isEmpty && variadicPositionals.isEmpty', '!keywordsOnly.isEmpty'))
m('str_nostar', 'PlainSig.strParts', '* never printed', 'C22', 'C22',
  ('Text', '++ (if !keywordsOnly.isEmpty && variadicPositionals.isEmpty then [[\'*\']] else [])', ''))
m('str_kw', 'Param.str', '**kwargs printed with one star', 'C22', 'C22',
  ('Text', "else if k = .variadicKeyword then ['*', '*']", "else if k = .variadicKeyword then ['*']"))
m('str_order', 'PlainSig.strParts', 'keyword-only before positional-or-keyword', 'C22, C23', 'C22 C23',
  ('Text', '    ++ (byKind s.parameters .positionalOrKeyword).map (Param.str rt)\n', ''),
  ('Text', '    ++ keywordsOnly.map (Param.str rt)\n', '    ++ keywordsOnly.map (Param.str rt)\n    ++ (byKind s.parameters .positionalOrKeyword).map (Param.str rt)\n'))
m('repr_drop', 'PlainSig.repr', 'parameters not shown', 'C23', 'C23',
  ('Text', 'else join commaSep (s.parameters.map (Param.repr rt)) ++ commaSep)', 'else commaSep)'))
m('repr_tuple', 'tupleRepr', 'one element tuples printed like parentheses', 'no claim about values yet', '',
  ('Text', "  | [t] => ['('] ++ t ++ \",)\".toList\n", ''))
