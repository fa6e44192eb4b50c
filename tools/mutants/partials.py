"""Mutants for C112 (partial objects of declared callables)."""
MUTANTS = []


def m(name, definition, edit, claim, expect, *edits):
    MUTANTS.append(dict(name=name, definition=definition, edit=edit, claim=claim,
                        expect=expect.split(), edits=list(edits)))


M = 'Models'
X = 'C112_callable C112_class C112_bound'
m('w_repeat', 'checkPositionals', 'keywords repeating positional-only parameters are let through', 'C112: there is no signature if a keyword repeats a parameter', X,
  (M, '      else .error (.typeError "positional passed as keyword")', '      else checkPositionals kwargs rest'))
m('w_lenient', 'Sig.bind', 'overloads that cannot be bound are left out', 'C112: all expected overloads have to be bound', X,
  (M, '''    match mapExcept (fun s : PlainSig => s.bind args kwargs)
        (ss.filter (fun s => s.expects args kwargs)) with
    | .error e => .error e
    | .ok signatures =>
      if''', '''    match ((ss.filter (fun s => s.expects args kwargs)).filterMap
        (fun s : PlainSig => (s.bind args kwargs).toOption)) with
    | signatures =>
      if'''))
m('w_filter', 'Sig.bind', 'all overloads are bound, expected or not', 'C112: one definition is enough', X,
  (M, '        (ss.filter (fun s => s.expects args kwargs)) with', '        ss with'))
m('w_extra', 'bindKeywords', 'unknown keywords are rejected despite **kwargs', 'C112: they can be completed', X,
  (M, 'if !extraNames.isEmpty && !hasVariadic then', 'if !extraNames.isEmpty then'))
m('w_many', 'bindPositionals', 'too many arguments are ignored', 'C112: the arguments can be completed', X,
  (M, '  if args.length > positionals.length && !hasVariadic then', '  if args.length > positionals.length + 1 && !hasVariadic then'))
