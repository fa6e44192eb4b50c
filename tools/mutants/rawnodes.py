MUTANTS = []


def m(name, definition, edit, claim, expect, *edits):
    MUTANTS.append(dict(name=name, definition=definition, edit=edit, claim=claim,
                        expect=expect.split(), edits=list(edits)))


T = 'RawNodes'
m('rn_ellipsis', 'astNamespace', 'Ellipsis is not removed from the namespace', 'C91: `...` is read back', 'C91',
  (T, 'classes.filter fun entry => entry.1 ≠ "Ellipsis".toList', 'classes'))
m('rn_more', 'astNamespace', 'Not is removed as well', 'C91', 'C91',
  (T, 'classes.filter fun entry => entry.1 ≠ "Ellipsis".toList', 'classes.filter fun entry => entry.1 ≠ "Ellipsis".toList ∧ entry.1 ≠ "Not".toList'))
m('rn_keywords', 'dumpFields', 'fields after one left out are not named', 'C91', 'C91',
  (T, 'if leftOut field.2 v then dumpFields classes printable true fields vs', 'if leftOut field.2 v then dumpFields classes printable keywords fields vs'))
m('rn_none', 'leftOut', 'every None is left out', 'C91', 'C91',
  (T, '  | .none_ => optional\n', '  | .none_ => true\n'))
m('rn_none_kept', 'leftOut', 'None is always written (allowed, only longer)', 'none: the text changes, the tree is read back', '',
  (T, '  | .none_ => optional\n', '  | .none_ => false\n'))
m('rn_sep', 'dumpTree', 'elements of lists are separated by blanks', 'C91', 'C91',
  (T, "  | .list items => '[' :: (join [',', ' ']", "  | .list items => '[' :: (join [' ']"))
m('rn_str', 'dumpTree', 'texts are written without escapes', 'C91', 'C91',
  (T, '  | .str s => strRepr printable s', "  | .str s => '\\'' :: (s ++ ['\\''])"))
m('rn_bytes', 'dumpTree', 'bytes are written as texts', 'C91', 'C91',
  (T, "  | .bytes s => 'b' :: strRepr (fun _ => false) s", '  | .bytes s => strRepr (fun _ => false) s'))
m('rn_any', 'fromRaw', 'values that are no nodes are accepted (no effect on texts of nodes)', 'none for texts of nodes', '',
  (T, '  | some (.node cls values) => some (.node cls values)\n  | _ => none', '  | x => x'))
