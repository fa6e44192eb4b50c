"""Mutants that let answers depend on the order in which modules are read, and mutants about bases imported by name."""
MUTANTS = []


def m(name, definition, edit, claim, expect, *edits):
    MUTANTS.append(dict(name=name, definition=definition, edit=edit, claim=claim,
                        expect=expect.split(), edits=list(edits)))


m('st_first_table', 'loadAstNodes', 'for a module that is not known the table read first is used', 'C119: answers do not depend on the order', 'C119_tables_partial C119_plain_partial',
  ('Signatures', '''  match R.stubs.rawAstNodes.lookup m with
  | none => .error .signatureNotFound
''', '''  match (R.stubs.rawAstNodes.lookup m).or (R.stubs.rawAstNodes.head?.map Prod.snd) with
  | none => .error .signatureNotFound
'''))
m('st_anywhere', 'resolve', 'names that builtins does not define are looked for in all modules, in the order in which they were read', 'C119: answers do not depend on the order', 'C119_tables_partial',
  ('Scoping', '''                    if scopeContains bs (head :: rest) then .ok (builtinsPath, head :: rest)
                    else .error .objectNotFound
''', '''                    if scopeContains bs (head :: rest) then .ok (builtinsPath, head :: rest)
                    else match T.definitions.find? (fun d => scopeContains d.2 (head :: rest)) with
                      | some d => .ok (d.1, head :: rest)
                      | none => .error .objectNotFound
'''))
m('st_bases_once', 'addSuperclass', 'a class that is a superclass already is not recorded again, neither for other classes', 'C118/C119: superclasses do not depend on the order', 'C119_plain_partial',
  ('Stubs', '''  { s with superclasses := dictUpdate s.superclasses m [] (fun d =>
      dictUpdate d child [] (· ++ [base])) }
''', '''  if s.superclasses.any (fun t => t.2.any (fun e => e.2.contains base)) then s
  else { s with superclasses := dictUpdate s.superclasses m [] (fun d =>
      dictUpdate d child [] (· ++ [base])) }
'''))
m('st_last_base', 'processClass', 'the last base of a class is left out', 'C115-C117: members are inherited from all bases', 'C117_sources_partial C119_plain_partial',
  ('Specialization', '  P.each (processBase o rep n cls) (List.range bases.length)', '  P.each (processBase o rep n cls) (List.range (bases.length - 1))'))
m('wb_name', 'visitImportFrom', 'an import as another name is recorded with the name in the module it is from', 'C116/C117: bases imported with another name are found', 'C116_branching_written_partial C117_sources_partial',
  ('Stubs', '''        (match alias.asname with
          | none => pathFromString alias.name
          | some asname => [asname]) (m, pathFromString alias.name))) names
''', '''        (pathFromString alias.name) (m, pathFromString alias.name))) names
'''))
m('wb_referent', 'visitImportFrom', 'an import as another name refers to that name in the module it is from', 'C116/C117: bases imported with another name are found', 'C116_branching_written_partial C117_sources_partial',
  ('Stubs', '          | some asname => [asname]) (m, pathFromString alias.name))) names', '          | some asname => [asname]) (m, [alias.asname.getD alias.name]))) names'))
m('wb_relative', 'visitImportFrom', 'imports are never relative', 'C42, C116/C117: imported bases are found', 'C42_from',
  ('Stubs', '  let m ← P.lift (toParentModulePath E.isPackage (module.map pathFromString) level c.module)\n  P.each (fun alias', '  let m ← P.lift (toParentModulePath E.isPackage (module.map pathFromString) 0 c.module)\n  P.each (fun alias'))
m('wb_parent', 'visitImportFrom', 'an import inside of a class is recorded for the module', 'C42: what an import makes known', 'C42_from',
  ('Stubs', '''      P.update (addReference c
        (match alias.asname with''', '''      P.update (addReference { c with parent := [] }
        (match alias.asname with'''))
