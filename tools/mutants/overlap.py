"""Mutants for C113 (starts that overlap)."""
MUTANTS = []


def m(name, definition, edit, claim, expect, *edits):
    MUTANTS.append(dict(name=name, definition=definition, edit=edit, claim=claim,
                        expect=expect.split(), edits=list(edits)))


O, C = 'Overlap', 'Caching'
X = 'C113_same_partial C113_alone_partial'
m('o_append', 'Step', 'the file is opened without being emptied', 'C113: remains of longer files of other versions are not used', 'C113_alone_partial',
  (O, '({ s with file := some [] }.put i (.writing 0))', '({ s with file := some (s.file.getD []) }.put i (.writing 0))'))
m('o_version', 'afterImport', 'the version is not compared', 'C113: files of other versions are not used', X,
  (O, '  match cachedTables harmless ((compute p.version).map Prod.fst) p.version (some text) with\n  | some tables => .settled tables',
   '  match load harmless ((compute p.version).map Prod.fst) (some text) with\n  | some tables => .settled tables'))
m('o_version_first', 'savedText', 'the version is written first', 'C113: incomplete files are not used', X,
  (O, 'saveText printable (compute version ++ [(versionName, .str version)])', 'saveText printable ((versionName, .str version) :: compute version)'))
m('o_child', 'afterImport', 'other processes use the tables of a file of any version', 'C113: they use those of their version or none', X,
  (O, '  | none => if p.main then .computed else .settled ((compute p.version).map fun _ => .dict [])',
   '  | none => if p.main then .computed else .settled ((load harmless ((compute p.version).map Prod.fst) (some text)).getD [])'))
m('o_position', 'Step', 'a process goes on one character too early', 'C113: the file has the right characters', X,
  (O, '          (.writing (position + count)))', '          (.writing (position + count - 1)))'))
m('o_uses_none', 'StartPhase.tables?', 'a process that has computed tables goes on without them', 'C113: processes use the tables of their version', 'C113_uses C113_kept',
  (O, '  | .computed | .writing _ | .compiling _ | .finished => some computes', '  | .computed | .writing _ | .compiling _ | .finished => none'))
