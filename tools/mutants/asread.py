"""Mutants for C109 (exactly the calls that definitions, as they are read, accept)."""
MUTANTS = []


def m(name, definition, edit, claim, expect, *edits):
    MUTANTS.append(dict(name=name, definition=definition, edit=edit, claim=claim,
                        expect=expect.split(), edits=list(edits)))


G, T = 'Signatures', 'Session'
m('e_slash', 'toPositionalParameters', 'parameters before / are read too', 'C109: they are overlooked', 'C109_exact',
  (G, '      | some node => paramFromNode ev node pd.2 .positionalOnly)\n    (zipLongest a.args.reverse a.defaults.reverse).reverse',
   '      | some node => paramFromNode ev node pd.2 .positionalOnly)\n    (zipLongest (a.posonlyargs ++ a.args).reverse a.defaults.reverse).reverse'))
m('e_keyword', 'toPositionalParameters', 'positional parameters can be given by keyword', 'C109: they cannot', 'C109_exact',
  (G, '      | some node => paramFromNode ev node pd.2 .positionalOnly)\n    (zipLongest a.args',
   '      | some node => paramFromNode ev node pd.2 .positionalOrKeyword)\n    (zipLongest a.args'))
m('e_self', 'replaceFirst', 'self is dropped from methods', 'C109: it is required', 'C109_exact',
  (G, '    let p ← RequiredParameter.new annotation (.kind .positionalOnly) p.name\n    return p :: ps',
   '    let _ ← RequiredParameter.new annotation (.kind .positionalOnly) p.name\n    return ps'))
m('e_optional', 'replaceFirst', 'an optional first parameter of a method stays optional', 'C109: it becomes required', 'C109_exact',
  (G, '    let p ← RequiredParameter.new annotation (.kind .positionalOnly) p.name\n    return p :: ps',
   '    if p.isOptional then return p :: ps\n    let p ← RequiredParameter.new annotation (.kind .positionalOnly) p.name\n    return p :: ps'))
m('e_constructor', 'adjustedParameters', 'constructors keep self', 'C109: the first parameter is dropped', 'C109_session C109_source_class',
  (T, '    | _ :: result => .ok result', '    | p :: result => .ok (p :: result)'))
m('e_default', 'paramFromNodeS', 'a parameter with an unknown default is required', 'C109: it is optional', 'C109_session C109_source',
  (T, 'if default.isEllipsis then Ev.lift (OptionalParameter.new annotation (.kind kind) node.name)',
   'if default.isEllipsis then Ev.lift (RequiredParameter.new annotation (.kind kind) node.name)'))
m('e_first', 'fromPathsS', 'only the first definition is used', 'C109: each of the definitions', 'C109_session',
  (T, '          (fun node => fromStatementS R E R.depth node value m object.dropLast) nodes\n        pure (some signatures))',
   '          (fun node => fromStatementS R E R.depth node value m object.dropLast) (nodes.take 1)\n        pure (some signatures))'))
m('e_decorators', 'anyExcept', 'the decorators after classmethod are looked at too', 'C110: only those before matter', 'C110_definition C110_callable',
  (G, '    | .ok true => .ok true\n    | .ok false => anyExcept f xs', '    | .ok true => (anyExcept f xs).map fun _ => true\n    | .ok false => anyExcept f xs'))
m('e_guard', 'parametersFrom', 'constructors without parameters are tolerated', 'C110: a first parameter is needed', 'C110_definition C110_class',
  (G, '    | [] => .error .indexError\n    | _ :: result => .ok result', '    | [] => .ok []\n    | _ :: result => .ok result'))
m('e_returns', 'returnsFrom', 'the result of __init__ is evaluated as well', 'C110: it need not be evaluable', 'C110_definition',
  (G, '  if c.isType && f.name == "__init__" then .ok selfObj\n  else\n    match f.returns with\n    | none => .ok anyObj\n    | some e => R.ev m parent e\n\n/-- `_from_statement_node` for',
   '  if c.isType && f.name == "__init__" then\n    match f.returns with\n    | none => .ok selfObj\n    | some e => (R.ev m parent e).map fun _ => selfObj\n  else\n    match f.returns with\n    | none => .ok anyObj\n    | some e => R.ev m parent e\n\n/-- `_from_statement_node` for'))
m('e_unknown', 'fromFunctionDef', 'annotations that cannot be evaluated are Any', 'C110: they have to be evaluable', 'C110_definition',
  (G, '    | none => .ok anyObj\n    | some e => R.ev m parent e\n\n/-- `_from_statement_node` for', '    | none => .ok anyObj\n    | some e => match R.ev m parent e with\n      | .ok v => .ok v\n      | .error _ => .ok anyObj\n\n/-- `_from_statement_node` for'))
