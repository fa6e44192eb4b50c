"""Mutants for C108 (calls do not depend on earlier questions) and for C28, C31, C63, C95 and C96 in sessions."""
MUTANTS = []


def m(name, definition, edit, claim, expect, *edits):
    MUTANTS.append(dict(name=name, definition=definition, edit=edit, claim=claim,
                        expect=expect.split(), edits=list(edits)))


T, L = 'Session', 'Models'
m('h_ellipsis', 'paramFromNodeS', 'a default that evaluates to ... makes a required parameter', 'C108, C95, C96',
  'C108_alike C96_session_partial',
  (T, 'if default.isEllipsis then Ev.lift (OptionalParameter.new annotation (.kind kind) node.name)',
   'if default.isEllipsis then Ev.lift (RequiredParameter.new annotation (.kind kind) node.name)'))
m('h_any', 'toPositionalParametersS', 'a first parameter with the annotation Any is left out', 'C108', 'C108_alike',
  (T, '      | some node => paramFromNodeS ev node pd.2 .positionalOnly)\n    (zipLongest a.args.reverse a.defaults.reverse).reverse',
   '      | some node => paramFromNodeS ev node pd.2 .positionalOnly)\n    (zipLongest a.args.reverse a.defaults.reverse).reverse\n    >>= fun ps => pure (ps.filter fun p => p.annotation.pyEq anyObj == false)'))
m('h_skip', 'fromPathsS', 'overloads that cannot be evaluated are skipped', 'C108: the number of overloads', 'C108_alike',
  (T, '          (fun node => fromStatementS R E R.depth node value m object.dropLast) nodes\n        pure (some signatures))',
   '          (fun node s => match fromStatementS R E R.depth node value m object.dropLast s with\n            | (.ok v, t) => (.ok [v], t)\n            | (.error .keyError, t) => (.ok [], t)\n            | (.error e, t) => (.error e, t)) nodes\n        pure (some signatures.flatten))'))
m('h_inspect', 'catchNotFound', 'inspect is consulted when the evaluation fails with a NameError', 'C108', 'C108_alike',
  (T, '  | (.error .signatureNotFound, s) => handler s\n', '  | (.error .signatureNotFound, s) => handler s\n  | (.error .nameError, s) => handler s\n'))
m('h_none', 'toKeywordParametersS', 'keyword parameters are positional if their annotation is Any', 'C108: kinds', 'C108_alike',
  (T, '  Ev.each (fun pd : Arg × Option Expr => paramFromNodeS ev pd.1 pd.2 .keywordOnly)',
   '  Ev.each (fun pd : Arg × Option Expr => do\n      let annotation ← annotationFromS ev pd.1\n      paramFromNodeS ev pd.1 pd.2 (if annotation.pyEq anyObj then .positionalOnly else .keywordOnly))'))
m('h_illegal', 'fromFunctionDefS', 'the constructor of signatures does not check', 'C63', 'C63_session',
  (T, '  let signature ← Ev.lift (PlainSig.new parameters returns)\n  pure (.plain signature)\n\n/-- The signature for', '  pure (.plain ⟨parameters, returns⟩)\n\n/-- The signature for'))
m('h_escape', 'fromCallableS', 'the fallback for functions is missing', 'C31', 'C31_session C31_fallback_session_partial',
  (T, '  | .function l raw => catchNotFound (fromFnS R E (.ofFunction l)) (Ev.lift (fromInspect raw))', '  | .function l _ => fromFnS R E (.ofFunction l)'))
m('h_self', 'fromCallableS', 'the fallback for classes does not return Self', 'C31', 'C31_fallback_session_partial',
  (T, 'fromRawSignature { raw with returns := some selfObj }', 'fromRawSignature raw'))
m('h_partial', 'fromCallableS', 'partials ignore their keywords', 'C28, C95, C96', 'C28_session_partial C95_session_partial',
  (T, '    Ev.lift (signature.bind args keywords)', '    Ev.lift (signature.bind args [])'))
m('h_order', 'declaredParametersS', 'the positional parameters of methods are reversed', 'C95', 'C95_session_partial',
  (T, '  pure (positionals ++ varPositional ++ keywords ++ varKeyword)', '  pure (positionals.reverse ++ varPositional ++ keywords ++ varKeyword)'))
m('h_varargs', 'declaredParametersS', '*args is left out', 'C96', 'C96_session_partial',
  (T, '  pure (positionals ++ varPositional ++ keywords ++ varKeyword)', '  pure (positionals ++ keywords ++ varKeyword)'))
m('h_constructor', 'adjustedParameters', 'constructors keep self', 'C95, C96', 'C95_session_partial C96_session_partial',
  (T, '    | _ :: result => .ok result', '    | result => .ok result'))
m('h_alias_any', 'fromNamedS', 'a callable class whose signature has Any as return type is not bound', 'C108', 'C108_alike',
  (T, '    let bound ← Ev.lift (mapExcept (fun s : Sig => s.bind [c.obj] []) signatures)',
   '    let bound ← Ev.lift (mapExcept (fun s : Sig => match s with\n      | .plain ⟨_, .form 0⟩ => .ok s\n      | _ => s.bind [c.obj] []) signatures)'))
m('h_callable', 'fromCallableItemS', 'the arguments of Callable that evaluate to None are left out', 'C108', 'C108_alike',
  (T, '      let s ← Ev.lift (PlainSig.new ps returns)\n      pure (.plain s)\n    | _ => do\n      let args',
   '      let s ← Ev.lift (PlainSig.new (ps.filter fun p => p.annotation.pyEq anyObj == false) returns)\n      pure (.plain s)\n    | _ => do\n      let args'))
