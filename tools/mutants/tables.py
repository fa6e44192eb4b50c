MUTANTS = []


def m(name, definition, edit, claim, expect, *edits):
    MUTANTS.append(dict(name=name, definition=definition, edit=edit, claim=claim,
                        expect=expect.split(), edits=list(edits)))


S = 'Scoping'
m('sc_contains', 'scopeContains', 'only the first name is looked up', 'C32: only defined objects are returned', 'C32',
  (S, '    | some scope => scopeContains scope path\n', '    | some _ => true\n'))
m('sc_missing', 'missingIndex', 'index not advanced', 'C37: attributes are inherited', 'C37',
  (S, 'missingIndex scope (index + 1) names', 'missingIndex scope index names'))
m('sc_longest', 'longestReference', 'shortest prefix preferred', 'C42: the longest imported prefix decides', 'C42',
  (S, '''    match references.lookup (path.take (k + 1)) with
    | some referent => some (k + 1, referent)
    | none => longestReference references path k''', '''    match longestReference references path k with
    | some r => some r
    | none =>
      match references.lookup (path.take (k + 1)) with
      | some referent => some (k + 1, referent)
      | none => none'''))
m('sc_visited', 'resolve', 'visited modules are looked through again', 'C35: star cycles are harmless', 'C35',
  (S, '((T.subs m).filter (fun s => !visited.contains s))', '(T.subs m)'))
m('sc_nomark', 'resolve', 'the module is not marked as visited for star imports', 'C35', 'C35',
  (S, 'tryEach (fun s => resolve T n s [] (head :: rest) (visited ++ [m]))', 'tryEach (fun s => resolve T n s [] (head :: rest) visited)'))
m('sc_order', 'resolve', 'builtins before references', 'C34: imports shadow builtins', 'C34',
  (S, '                match longestReference refs (head :: rest) (rest.length + 1) with\n', '                match (if ((T.definitions.lookup builtinsPath).map (scopeContains · (head :: rest))).getD false then none else longestReference refs (head :: rest) (rest.length + 1)) with\n'))
m('sc_parent', 'resolve', 'enclosing class not looked at', 'C34: the class comes first', 'C34_class_first',
  (S, 'else if !parent.isEmpty && scopeContains defs (parent ++ [head]) then\n          resolve T n m [] (parent ++ head :: rest) visited', 'else if !parent.isEmpty && scopeContains defs (parent ++ [head]) && false then\n          resolve T n m [] (parent ++ head :: rest) visited'))
m('sc_object', 'resolve', 'no fallback to object', 'C37: attributes of object', 'C37_object',
  (S, '                if head ≠ "object" then', '                if head ≠ "object" ∧ False then'))
m('sc_drop', 'resolve', 'the rest of the path after a reference is dropped', 'C42, C34', 'C34_reference C42',
  (S, 'resolve T n rm [] (ro ++ (head :: rest).drop k) (visited ++ [m])\n', 'resolve T n rm [] ro (visited ++ [m])\n'))
m('sc_dropm', 'resolve', 'referenced submodules: the name of the module is kept', 'C42', 'C42',
  (S, 'else resolve T n (rm ++ ro) [] ((head :: rest).drop k) (visited ++ [m])', 'else resolve T n (rm ++ ro) [] (head :: rest) (visited ++ [m])'))
m('sc_supers', 'resolve', 'only the first base is searched', 'C37', 'C37',
  (S, '((T.supers m ((head :: rest).take index)).getD []) with', '(((T.supers m ((head :: rest).take index)).getD []).take 1) with'))
m('sc_superdrop', 'resolve', 'the wrong part of the path is searched in the bases', 'C37', 'C37',
  (S, '(s.2 ++ (head :: rest).drop index) (visited ++ [m]))', '(s.2 ++ (head :: rest).drop (index + 1)) (visited ++ [m]))'))
m('sc_catch', 'tryEach', 'any exception is swallowed', 'C36/C61: other errors propagate', 'C68',
  (S, '    | .error .objectNotFound => tryEach f xs\n    | r => some r\n\n/-- The walk', '    | .error _ => tryEach f xs\n    | r => some r\n\n/-- The walk'))
m('sc_supported', 'filterExcept', 'keeps everything', 'C38: only resolvable locations', 'C38',
  (S, '.ok (if b then x :: ys else ys)', '.ok (x :: ys)'))
m('sc_supported2', 'filterEntries', 'empty entries are kept', 'C38', 'C38',
  (S, '.ok (if v.isEmpty then d else (k, v) :: d)', '.ok ((k, v) :: d)'))
m('sc_builtin', 'resolve', 'any name is found in builtins', 'C32', 'C32',
  (S, '                    if scopeContains bs (head :: rest) then .ok (builtinsPath, head :: rest)\n                    else .error .objectNotFound', '                    if scopeContains bs [head] then .ok (builtinsPath, head :: rest)\n                    else .error .objectNotFound'))

R = 'Sources'
m('src_suffixes', 'suffixes', 'the leading part counts as a suffix', 'C59', 'C59',
  (R, '((splitDots (name.dropWhile (· == \'.\'))).drop 1)', '((splitDots (name.dropWhile (· == \'.\'))).drop 0)'))
m('src_init', 'moduleOfFile', '__init__ is not dropped', 'C59: packages', 'C59',
  (R, 'if name = initName then f.parents else f.parents ++ [String.ofList name]', 'f.parents ++ [String.ofList name]'))
m('src_getname', 'getModuleName', 'shorter suffixes first', 'C59: x.abi3.so is module x', 'C59_module',
  (R, '''  [".cpython-311-x86_64-linux-gnu.so".toList, ".abi3.so".toList, ".pyc".toList, ".py".toList,
   ".so".toList]''', '''  [".so".toList, ".abi3.so".toList, ".cpython-311-x86_64-linux-gnu.so".toList, ".pyc".toList, ".py".toList]'''))
m('src_stub', 'isStubFile', 'anything ending in .pyi, whatever the other suffixes', 'C59: stubs of different modules', 'C59',
  (R, 'suffixes f.name == [".pyi".toList]', '(suffixes f.name).getLast? == some ".pyi".toList'))
m('src_cache', 'stubsCache', 'stub files are not filtered', 'C59', 'C59',
  (R, '(files.filter isStubFile).foldl', 'files.foldl'))
m('src_package', 'isPackagePath', 'origin is not looked at', 'C59_package', 'C59_package',
  (R, '    | none => false\n    | some name => (splitSuffix name).1 == initName', '    | none => false\n    | some name => false && (splitSuffix name).1 == initName'))
m('src_parent', 'pathToParent', 'drops the first name', 'C50', 'C50',
  (R, 'value.dropLast', 'value.drop 1'))
m('disc_take', 'updateRecursively', 'only the listed modules, not those below', 'C58: nothing below an unsupported package', 'C58_none_below',
  (R, 'paths.any fun path => candidate.take path.length == path', 'paths.any fun path => candidate == path'))
m('disc_filter', 'supportedModules', 'filter negated', 'C58', 'C58',
  (R, 'stdlib.filter fun m => !(unsupportedModules e stdlib).contains m', 'stdlib.filter fun m => (unsupportedModules e stdlib).contains m'))
m('disc_pypy', 'unsupportedModules', 'pypy internals are supported', 'C58', 'C58',
  (R, '(if e.pypy then stdlib.filter pypyInternal else [])', '[]'))
m('disc_platform', 'unsupportedNames', 'win32 and the others swapped', 'C58', 'C58',
  (R, '    ++ if e.win32 then\n      [["curses"', '    ++ if !e.win32 then\n      [["curses"'))
m('src_valid', 'isValidModulePath', 'packages called tests are kept', 'C58/C59: tests are never imported', 'C5',
  (R, '!m.contains "test" && !m.contains "tests" &&', '!m.contains "test" &&'))

X = 'Index'
m('ix_visited', 'indexEntry', 'visited classes are entered again', 'C57: terminates', 'C57_terminates',
  (X, 'if visited.contains id then .ok paths\n', 'if visited.contains id && false then .ok paths\n'))
m('ix_shared', 'indexEntry', 'the path of the parent is not extended', 'C57: sound', 'C57_sound',
  (X, 'else inner id (parent ++ [entry.1]) (id :: visited)', 'else inner id parent (id :: visited)'))
m('ix_location', 'indexEntry', 'location without the parent', 'C57: sound', 'C57_sound',
  (X, '.ok (addLocation paths q (m, parent ++ [entry.1]))', '.ok (addLocation paths q (m, [entry.1]))'))
m('ix_skip', 'indexEntry', 'nested classes are not entered', 'C73: complete', 'C73',
  (X, '''        else inner id (parent ++ [entry.1]) (id :: visited)
          (addLocation paths q (m, parent ++ [entry.1]))''', '''        else .ok (addLocation paths q (m, parent ++ [entry.1]))'''))
m('ix_over', 'addLocation', 'earlier locations are replaced', 'C73: complete', 'C73',
  (X, 'dictUpdate d q.2 [] (· ++ [location])', 'dictUpdate d q.2 [] (fun _ => [location])'))
m('ix_over2', 'addLocation', 'earlier objects of the module are lost', 'C73: complete', 'C73',
  (X, 'dictUpdate paths q.1 [] fun d => dictUpdate d q.2 [] (· ++ [location])', 'dictUpdate paths q.1 [] fun _ => dictUpdate [] q.2 [] (· ++ [location])'))
m('ix_empty', 'indexEntry', 'objects without a qualified path are recorded', 'C57: sound', 'C57_sound',
  (X, 'if q.2.isEmpty then .ok paths else .ok', 'if false then .ok paths else .ok'))
m('ix_import', 'indexModule', 'wrong module path', 'C57', 'C57',
  (X, '| some namespace_ => indexNamespace W n m namespace_ [] [] paths', '| some namespace_ => indexNamespace W n m.dropLast namespace_ [] [] paths'))

E = 'Execution'
m('ex_swap', 'putResultInQueue', 'result and error swapped', 'C56', 'C56',
  (E, '| .returned value => putPair transfer value 0', '| .returned value => putPair transfer 0 value'))
m('ex_ignore', 'callInProcess', 'errors of the child are ignored', 'C56', 'C56_outcome',
  (E, 'if error ≠ 0 then .raised error else .returned result', '.returned result'))
m('ex_norestore', 'CallStep', '__main__ is not restored', 'C55', 'C55',
  (E, 'CallStep caller lock m (m.move i (some s) (.done r))', 'CallStep caller lock m (m.move i m.main (.done r))'))
m('ex_restore', 'CallStep', '__main__ restored to the caller when it was missing', 'C55', 'C55',
  (E, '''m.phase i = .ended none r → m.main ≠ none →
    CallStep caller lock m (m.move i none (.done r))''', '''m.phase i = .ended none r → m.main ≠ none →
    CallStep caller lock m (m.move i m.main (.done r))'''))
m('ex_order', 'CallStep', 'saved after replacing', 'C55', 'C55',
  (E, '''caller i = some c → CallStep caller lock m (m.move i (some c) (.replaced s))''', '''caller i = some c → CallStep caller lock m (m.move i (some c) (.replaced (some c)))'''))

Y = 'Pretty'
m('pr_comma', 'reprFrom', 'one element tuples without comma', 'C51', 'C51',
  (Y, "(reprFrom printable indent depth x ++ [',', ')'])", "(reprFrom printable indent depth x ++ [')'])"))
m('pr_set', 'reprFrom', 'the empty set is written {}', 'C51', 'C51',
  (Y, "| .set [] => ['s', 'e', 't', '(', ')']", "| .set [] => ['{', '}']"))
m('pr_quote', 'charRepr', 'quotes are not escaped', 'C51', 'C51',
  (Y, "if c = quote ∨ c = '\\\\' then", "if c = '\\\\' then"))
m('pr_hex', 'charRepr', 'two digits for all characters up to ffff', 'C51', 'C51',
  (Y, "else if c.toNat ≤ 0xffff then '\\\\' :: 'u' :: hexDigits 4 c.toNat", "else if c.toNat ≤ 0xffff then '\\\\' :: 'x' :: hexDigits 2 c.toNat"))
m('pr_sort', 'reprFrom', 'entries are not sorted', 'C74', 'C74',
  (Y, "(join [',', '\\n'] (sortTexts (entriesReprs printable indent (depth + 1) (e :: es)))", "(join [',', '\\n'] (id (entriesReprs printable indent (depth + 1) (e :: es)))"))
m('pr_neg', 'intRepr', 'off by one for negative numbers', 'C51', 'C51',
  (Y, "'-' :: Nat.toDigits 10 (n + 1)", "'-' :: Nat.toDigits 10 n"))
m('pr_sep', 'reprFrom', 'list elements separated by line ends only', 'C51', 'C51',
  (Y, """    '[' :: '\\n' ::
      (join [',', '\\n']""", """    '[' :: '\\n' ::
      (join ['\\n']"""))

C = 'Caching'
m('ca_first', 'startUp', 'the version is saved first', 'C52: cut files are not used', 'C5',
  (C, 'save printable (compute version ++ [(versionName, .str version)]) file stop', 'save printable ((versionName, .str version) :: compute version) file stop'))
m('ca_check', 'isVersion', 'the version is not compared', 'C53', 'C53',
  (C, '  | .str s => s == version\n', '  | .str _ => true\n'))
m('ca_child', 'startUp', 'other processes compute nothing but save', 'C53', 'C53',
  (C, '    else ((compute version).map fun _ => .dict [], file)', '    else ((compute version).map fun _ => .dict [], save printable ((compute version).map (fun f => (f.1, .dict [])) ++ [(versionName, .str version)]) file stop)'))
m('ca_main', 'startUp', 'no rebuild in the main process', 'C53', 'C53_main',
  (C, '    if main then\n', '    if main && false then\n'))
m('ca_attr', 'variableOf', 'missing names are empty', 'C52', 'C52',
  (C, '    | none => if name\' = name then some value else none', '    | none => if name\' = name then some value else some (.dict [])'))
m('ca_line', 'saveText', 'no line ends', 'C52_full', 'C52',
  (C, "(reprFrom printable 4 0 value ++ '\\n' :: saveText printable fields)", "(reprFrom printable 4 0 value ++ saveText printable fields)"))
m('ca_name', 'cacheName', 'the implementation is left out', 'C54', 'C54',
  (C, "    ++ '_' :: (e.implementation\n", "    ++ '_' :: (e.platform\n"))
m('ca_name2', 'cacheName', 'micro version left out', 'C54', 'C54',
  (C, 'Nat.toDigits 10 e.minor, Nat.toDigits 10 e.micro,', 'Nat.toDigits 10 e.minor, Nat.toDigits 10 e.minor,'))
m('ca_dots', 'cacheName', 'version parts concatenated', 'C54', 'C54',
  (C, "t.map fun c => if c = '.' then '_' else c", "t.filter fun c => c != '.'"))
m('sc_parent_or', 'resolve', 'names outside of classes are looked up with themselves as parents', 'C34', 'C34',
  (S, 'else if !parent.isEmpty && scopeContains', 'else if !parent.isEmpty || scopeContains'))
