"""Mutants for C111 (callables of modules without stubs)."""
MUTANTS = []


def m(name, definition, edit, claim, expect, *edits):
    MUTANTS.append(dict(name=name, definition=definition, edit=edit, claim=claim,
                        expect=expect.split(), edits=list(edits)))


G, T, S = 'Signatures', 'Session', 'Scoping'
m('x_unknown', 'resolve', 'a module without stubs is a KeyError', 'C111: what inspect reports is used', 'C111_exact C111_error',
  (S, '    match T.definitions.lookup m with\n    | none => .error .objectNotFound\n    | some defs =>\n      match object with\n      | [] => .ok (m, [])\n      | head :: rest =>\n        if !scopeContains defs parent',
   '    match T.definitions.lookup m with\n    | none => .error .keyError\n    | some defs =>\n      match object with\n      | [] => .ok (m, [])\n      | head :: rest =>\n        if !scopeContains defs parent'))
m('x_catch', 'tryResolve', 'objects that are not found are not caught', 'C111: what inspect reports is used', 'C111_exact C111_error',
  (G, '  | .error .objectNotFound => .ok ([], [])\n  | r => r', '  | r => r'))
m('x_self', 'fromCallableS', 'the result of a class without stubs is what inspect reports', 'C111: it is Self', 'C111_exact',
  (T, '      fromRawSignature { raw with returns := some selfObj }))', '      fromRawSignature raw))'))
m('x_bound', 'fromCallableS', 'the report about a bound method is bound once more', 'C111: the reported parameters are kept', 'C111_exact',
  (T, '      | none => fromFnS R E (.ofMethod obj)\n      | some (self, attr) => fromInstanceS R E self attr) (Ev.lift (fromInspect raw))',
   '      | none => fromFnS R E (.ofMethod obj)\n      | some (self, attr) => fromInstanceS R E self attr) (Ev.lift (do\n        let sig ← fromInspect raw\n        match self with\n        | none => .ok sig\n        | some (self, _) => sig.bind [self] []))'))
m('x_wrapper', 'fromCallableS', 'method wrappers without stubs have no signature', 'C111: what inspect reports is used', 'C111_exact C111_error',
  (T, '    | some (self, attr) => catchNotFound (fromInstanceS R E self attr) (Ev.lift (fromInspect raw))\n',
   '    | some (self, attr) => fromInstanceS R E self attr\n'))
m('x_default', 'paramFromRaw', 'defaults are not kept', 'C111: they are', 'C111_exact C24_exact',
  (G, '  | some default => OptionalParameter.new annotation (.kind raw.kind) raw.name default', '  | some _ => OptionalParameter.new annotation (.kind raw.kind) raw.name'))
m('x_annotation', 'paramFromRaw', 'annotations are not kept', 'C111: they are', 'C111_exact C24_exact',
  (G, '  let annotation := raw.annotation.getD anyObj\n  match raw.default', '  let annotation := anyObj\n  match raw.default'))
m('x_required', 'paramFromRaw', '*args is required', 'C111: exactly the calls Python accepts', 'C111_exact C24_exact',
  (G, '    if raw.kind == .variadicPositional || raw.kind == .variadicKeyword then\n      OptionalParameter', '    if raw.kind == .variadicKeyword then\n      OptionalParameter'))
m('x_homeless', 'candidatePaths', 'functions without a module are looked up as well', 'C111: what inspect reports is used', 'C111_exact C111_error',
  (G, '    else .ok (if m.isEmpty then [] else [(m, object)])', '    else .ok [(m, object)]'))
m('x_partial', 'fromCallableS', 'keywords of partial objects are not bound', 'C111: partial objects', 'C111_partials',
  (T, '    Ev.lift (signature.bind args keywords)\n  | .other', '    Ev.lift (signature.bind args [])\n  | .other'))
