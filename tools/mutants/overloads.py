"""Mutants for C29 (overloads in sessions) and C107 (what equality says about types)."""
MUTANTS = []


def m(name, definition, edit, claim, expect, *edits):
    MUTANTS.append(dict(name=name, definition=definition, edit=edit, claim=claim,
                        expect=expect.split(), edits=list(edits)))


T, O, M, E = 'Session', 'Objects', 'Models', 'Evaluation'
m('o_first', 'fromPathsS', 'only the first overload is used', 'C29', 'C29_function C29_bound',
  (T, '| some signatures => Ev.lift (fromSignatures signatures)', '| some signatures => Ev.lift (fromSignatures (signatures.take 1))'))
m('o_reverse', 'fromPathsS', 'overloads are reversed', 'C29', 'C29_function C29_bound',
  (T, '| some signatures => Ev.lift (fromSignatures signatures)', '| some signatures => Ev.lift (fromSignatures signatures.reverse)'))
m('o_class_reverse', 'fromClassS', 'constructors are reversed', 'C29: classes', 'C29_class',
  (T, '    let signatures ← Ev.each (fun node => fromStatementS R E R.depth node f q.1 q.2.dropLast) nodes\n    Ev.lift (fromSignatures signatures)', '    let signatures ← Ev.each (fun node => fromStatementS R E R.depth node f q.1 q.2.dropLast) nodes\n    Ev.lift (fromSignatures signatures.reverse)'))
m('o_names', 'paramFromNodeS', 'parameters without annotations lose their names', 'C29: names', 'C29_function',
  (T, 'variadicKeyword then\n      Ev.lift (OptionalParameter.new annotation (.kind kind) node.name)\n', 'variadicKeyword then\n      Ev.lift (OptionalParameter.new annotation (.kind kind) "")\n'))
m('o_bind_twice', 'fromInstanceS', 'two arguments are bound', 'C29: bound', 'C29_bound',
  (T, 'Ev.lift (signature.bind [self] [])', 'Ev.lift (signature.bind [self, self] [])'))
m('o_bind_none', 'fromInstanceS', 'nothing is bound', 'C29: bound', 'C29_bound',
  (T, 'Ev.lift (signature.bind [self] [])', 'Ev.lift (signature.bind [] [])'))
m('o_fallback', 'catchNotFound', 'every error is caught', 'C29/C31: inspect is only consulted for what is not found', 'C29_function',
  (T, '| (.error .signatureNotFound, s) => handler s', '| (.error _, s) => handler s'))
m('q_nan', 'Obj.isNanWith', 'any two objects are identical', 'C107', 'C107_partial',
  (O, '  | .atom (.nan i), .atom (.nan j) => i == j\n  | _, _ => false', '  | .atom (.nan i), .atom (.nan j) => i == j\n  | _, _ => true'))
m('q_or', 'Obj.pyEqs', 'one equal argument suffices', 'C107', 'C107_partial',
  (O, '(Obj.isNanWith a b || Obj.pyEq a b) && Obj.pyEqs as bs', '(Obj.isNanWith a b || Obj.pyEq a b) || Obj.pyEqs as bs'))
m('q_union', 'Origin.isUnionLike', 'classes count as unions', 'C107: the order of arguments matters', 'C107_partial',
  (O, '  | .cls i => i == unionTypeCls', '  | .cls i => i != unionTypeCls'))
m('q_origin', 'Obj.areEqual', 'the origin is not compared', 'C107', 'C107_partial',
  (O, '    r.originOrSelf == some o\n      && as.length == r.getArgs.length', '    as.length == r.getArgs.length'))
m('q_length', 'Obj.areEqual', 'the number of arguments is not compared', 'C107', 'C107_partial',
  (O, '      && as.length == r.getArgs.length\n', '\n'))
m('q_half', 'Obj.areEqual', 'a union equals a larger one', 'C107', 'C107_partial',
  (O, 'Obj.areAllAny as r.getArgs && r.getArgs.all (fun b => Obj.areAny as b)', 'Obj.areAllAny as r.getArgs'))
m('q_sets', 'Obj.areEqual', 'the arguments of every generic are compared as sets', 'C107', 'C107_partial',
  (O, 'if o == .form unionForm || o == .form literalForm then\n            Obj.areAllAny', 'if true then\n            Obj.areAllAny'))
m('q_bound', 'Obj.areEqual', 'the bounds of type variables are not compared', 'C107', 'C107_partial',
  (O, '    n == n\' && Obj.areEqual b b\' && c == c\' && v == v\'\n      && cs.length', '    n == n\' && c == c\' && v == v\'\n      && cs.length'))
m('q_constraints', 'Obj.areEqual', 'constraints are compared up to the shorter list', 'C107', 'C107_partial',
  (O, '      && cs.length == cs\'.length && Obj.areEquals cs cs\'', '      && Obj.areEquals cs cs\''))
m('q_newtype', 'Obj.areEqual', 'new types are compared by name only', 'C107', 'C107_partial',
  (O, '| .newType _ q s, .newType _ q\' s\' => q == q\' && Obj.areEqual s s\'', '| .newType _ q _, .newType _ q\' _ => q == q\''))
m('q_list', 'Obj.areEqual', 'lists are compared up to the shorter one', 'C107', 'C107_partial',
  (O, '| .list as, .list bs => as.length == bs.length && Obj.areEquals as bs', '| .list as, .list bs => Obj.areEquals as bs'))
m('q_param_kind', 'Param.eq', 'kinds are not compared', 'C107', 'C107_partial',
  (M, "  | .required a k n, .required a' k' n' => n == n' && k == k' && a.areEqual a'", "  | .required a _ n, .required a' _ n' => n == n' && a.areEqual a'"))
m('q_param_default', 'Param.eq', 'it is not compared whether there is a default', 'C107', 'C107_partial',
  (M, "    n == n' && k == k' && d.isSome == d'.isSome\n      &&", "    n == n' && k == k'\n      &&"))
m('q_returns', 'PlainSig.eq', 'return types are not compared', 'C107', 'C107_partial',
  (M, 'listEq Param.eq s.parameters t.parameters && s.returns.areEqual t.returns', 'listEq Param.eq s.parameters t.parameters'))
