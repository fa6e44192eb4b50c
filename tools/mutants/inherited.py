MUTANTS = []


def m(name, definition, edit, claim, expect, *edits):
    MUTANTS.append(dict(name=name, definition=definition, edit=edit, claim=claim,
                        expect=expect.split(), edits=list(edits)))


T = 'Specialization'
S = 'Scoping'
m('ih_zip_swap', 'registerNew', 'the arguments are replaced by nothing in the members', 'C115: members have the arguments in the place of parameters', 'C115',
  (T, '  registerGeneric o n g.1 g.2 cm [name] params (unpack slice)\n  let s ← P.get', '  registerGeneric o n g.1 g.2 cm [name] params []\n  let s ← P.get'))
m('ih_reversed', 'registerNew', 'the arguments are taken in reverse order', 'C115', 'C115',
  (T, '  registerGeneric o n g.1 g.2 cm [name] params (unpack slice)\n  let s ← P.get', '  registerGeneric o n g.1 g.2 cm [name] params (unpack slice).reverse\n  let s ← P.get'))
m('ih_sub_reversed', 'registerSubscript', 'the arguments of a base of a base are taken in reverse order', 'C115', 'C115',
  (T, '    registerGeneric o n g.1 g.2 cm [name] params (unpack slice)\n    pure', '    registerGeneric o n g.1 g.2 cm [name] params (unpack slice).reverse\n    pure'))
m('ih_table_value', 'registerSubscript', 'the arguments of a base of a base are not specialised', 'C115', 'C115',
  (T, '  let slice ← P.lift (specialize table slice)\n', ''))
m('ih_name_value', 'registerBase', 'the identifier is that of the class alone', 'C115: specialisations are told apart by the whole base', 'C115',
  (T, '    let name ← P.lift (toIdentifier rep (.subscript value slice load))\n    let registered ← isRegistered name\n    if registered then pure (specPath, [name])\n    else do\n      registerNew', '    let name ← P.lift (toIdentifier rep value)\n    let registered ← isRegistered name\n    if registered then pure (specPath, [name])\n    else do\n      registerNew'))
m('ih_registered', 'registerBase', 'a registered specialisation is not recorded as superclass but the class itself', 'C115', 'C115',
  (T, '    if registered then pure (specPath, [name])\n    else do\n      registerNew', '    if registered then pure (cm, co)\n    else do\n      registerNew'))
m('ih_class_order', 'processClass', 'bases are processed from the last to the first', 'C115: earlier bases come first', 'C115',
  (T, '(List.range bases.length)', '(List.range bases.length).reverse'))
m('ih_first_base', 'processClass', 'the first base only is processed', 'C115', 'C115',
  (T, '(List.range bases.length)', '(List.range (min bases.length 1))'))
m('ih_generic_parent', 'registerNew', 'the generic class is looked up in the class itself', 'C115: the base means what it means around the class', 'C115',
  (T, '  let g ← resolveNow n cm co.dropLast path\n  let params', '  let g ← resolveNow n cm co path\n  let params'))
m('ih_member_nodes', 'registerMember', 'the nodes of the generic class are kept as they are', 'C115', 'C115',
  (T, 'P.update (setSpecNodes (so ++ [name]) newNodes)', 'P.update (setSpecNodes (so ++ [name]) genericNodes)'))
m('ih_member_kind', 'registerMember', 'members get the kind of the class', 'C115', 'C115',
  (T, 'P.update (setSpecKind (so ++ [name]) kind)', 'P.update (setSpecKind (so ++ [name]) .class_)'))
m('ih_res_supers', 'resolve', 'superclasses are tried from the last to the first', 'C115', 'C115',
  (S, '((T.supers m ((head :: rest).take index)).getD []) with', '((T.supers m ((head :: rest).take index)).getD []).reverse with'))
m('ih_res_drop', 'resolve', 'the member is looked up in superclasses by its whole path', 'C115', 'C115',
  (S, '(s.2 ++ (head :: rest).drop index) (visited ++ [m])', '(s.2 ++ rest) (visited ++ [m])'))
m('ih_res_object', 'resolve', 'builtins.object is tried before the superclasses', 'C115', 'C115',
  (S, '''              match tryEach (fun s : QPath => resolve T n s.1 []
                  (s.2 ++ (head :: rest).drop index) (visited ++ [m]))
                  ((T.supers m ((head :: rest).take index)).getD []) with''', '''              match tryEach (fun s : QPath => resolve T n s.1 []
                  (s.2 ++ (head :: rest).drop index) (visited ++ [m]))
                  ((builtinsPath, ["object"]) :: (T.supers m ((head :: rest).take index)).getD []) with'''))
m('ih_unpack', 'registerNew', 'the arguments of a single base are those of its first argument', 'C115', 'C115',
  (T, '  registerGeneric o n g.1 g.2 cm [name] params (unpack slice)\n  let s ← P.get', '  registerGeneric o n g.1 g.2 cm [name] params ((unpack slice).take 1)\n  let s ← P.get'))
m('mr_object_first', 'resolve', 'members of builtins.object are looked up first', 'C116: classes come before object', 'C116',
  (S, '''              match tryEach (fun s : QPath => resolve T n s.1 []
                  (s.2 ++ (head :: rest).drop index) (visited ++ [m]))
                  ((T.supers m ((head :: rest).take index)).getD []) with''', '''              match tryEach (fun s : QPath => resolve T n s.1 []
                  (s.2 ++ (head :: rest).drop index) (visited ++ [m]))
                  (if head = "object" then [] else (builtinsPath, ["object"]) :: (T.supers m ((head :: rest).take index)).getD []) with'''))
m('mr_first_only', 'resolve', 'only the first base is searched', 'C116', 'C116',
  (S, '((T.supers m ((head :: rest).take index)).getD []) with', '(((T.supers m ((head :: rest).take index)).getD []).take 1) with'))
m('mr_no_object', 'resolve', 'object is not searched', 'C116: object is the last class of the order', 'C116',
  (S, 'if head ≠ "object" then\n                  resolve T n builtinsPath', 'if head = "object" then\n                  resolve T n builtinsPath'))
m('mr_reversed', 'resolve', 'bases are searched from the last to the first', 'C116', 'C116',
  (S, '((T.supers m ((head :: rest).take index)).getD []) with', '(((T.supers m ((head :: rest).take index)).getD []).reverse) with'))
m('mr_visited', 'resolve', 'bases in modules visited before are skipped', 'C116: the module of a base does not matter', 'C116',
  (S, '((T.supers m ((head :: rest).take index)).getD []) with', '(((T.supers m ((head :: rest).take index)).getD []).filter (fun s => !visited.contains s.1)) with'))
m('mr_stop', 'tryEach', 'the search ends at the first base that does not have the member', 'C116', 'C116',
  (S, '    | .error .objectNotFound => tryEach f xs', '    | .error .objectNotFound => none'))
G = 'Signatures'
m('is_parent', 'fromPaths', 'declarations are read as if they were at the level of the module', 'C117: names are those of the class that declares the method', 'C117',
  (G, 'fromStatement R R.depth node value m object.dropLast) nodes with\n      | .error .signatureNotFound => fromPaths', 'fromStatement R R.depth node value m []) nodes with\n      | .error .signatureNotFound => fromPaths'))
m('is_own', 'tryResolve', 'only places that lead to themselves are kept', 'C117: inherited declarations are found', 'C117',
  (G, '  | .error .objectNotFound => .ok ([], [])\n  | r => r', '  | .error .objectNotFound => .ok ([], [])\n  | .ok r => .ok (if r == q then r else ([], []))\n  | r => r'))
m('is_unresolved', 'tryResolve', 'the place itself is kept instead of the one it leads to', 'C117: inherited declarations are found', 'C117',
  (G, '  | .error .objectNotFound => .ok ([], [])\n  | r => r', '  | .error .objectNotFound => .ok ([], [])\n  | .ok _ => .ok q\n  | r => r'))
m('is_filter', 'containsObjectPath', 'only places in the module asked about are supported', 'C117: inherited declarations are found', 'C117',
  (S, '  | .ok _ => .ok true\n', '  | .ok r => .ok (r.1 == m)\n'))
