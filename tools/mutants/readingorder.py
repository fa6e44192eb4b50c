"""Mutants about which files are opened while a module is read."""
MUTANTS = []


def m(name, definition, edit, claim, expect, *edits):
    MUTANTS.append(dict(name=name, definition=definition, edit=edit, claim=claim,
                        expect=expect.split(), edits=list(edits)))


S = 'Stubs'
X = 'C118_sources_partial C118_sources_tables_partial C119_sources_partial'
m('ro_qualified', 'toQualified', 'the module of what a name means is read at once', 'C118: modules that only name what comes later do not need it', X,
  (S, """  P.orNotFound (resolve c.module c.parent object) (do
    P.update (addDefinition c object)
    pure (c.module, object))
""", """  P.orNotFound (do
    let q ← resolve c.module c.parent object
    let _ ← resolve q.1 [] object
    pure q) (do
    P.update (addDefinition c object)
    pure (c.module, object))
"""))
m('ro_follow', 'resolveIn', 'references are followed at once, so that the module they lead to is read', 'C118: imports are not read', X,
  (S, "      | some (k, rm, ro) => pure (rm, ro ++ (head :: rest).drop k)\n", "      | some (k, rm, ro) => P.orNotFound (resolve rm [] (ro ++ (head :: rest).drop k)) (pure (rm, ro ++ (head :: rest).drop k))\n"))
m('ro_package', 'resolveIn', 'names are looked for in the enclosing package as well', 'C118: packages are not read', X,
  (S, "(head :: rest)) (do\n      let refs ← P.item ParseState.references m\n", "(head :: rest)) (do\n      let _ ← resolve m.dropLast [] (head :: rest)\n      let refs ← P.item ParseState.references m\n"))
m('ro_origin', 'visitBase', 'the class before the brackets is read as well when a base has arguments', 'C118: only arguments of bases are looked at', X,
  (S, """      let q ← resolve c.module c.parent origin
""", """      let q ← resolve c.module c.parent origin
      let _ ← parse q.1
"""))
