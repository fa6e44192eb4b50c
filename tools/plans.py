# plan(ids, what is modelled, how it is proved)
plan('C01 C02', 'constructors of `models.py`', 'invariant of the validation loop against a declarative definition of legal lists')
plan('C03 C04 C05 C07 C12 C13 C14 C15', '`bind`, `expects`, `all_set` on lists of parameters', 'characterisation of the three algorithms by the numbers of positionals and the sets of names; induction over lists sorted by kind')
plan('C06 C08 C09 C10 C11', 'the same, against the slot-filling specification of Python calls', 'both sides reduced to conditions on counts and names')
plan('C16 C17 C18', 'overloaded signatures', 'induction over the overloads, theorems on plain signatures')
plan('C19 C20', '`annotated.are_equal`, `__eq__`, `__hash__` with a parametric hash', 'structural induction over annotation objects; witnesses')
plan('C21 C22 C23', 'pickling arguments, `__str__`, `__repr__`, `to_repr`', 'case analysis; a reader of parameter lists as specification and a round trip')
plan('C24', 'conversion of `inspect` signatures', 'list induction; acceptance compared with the call specification')
plan('C25 C26 C27 C48 C62', 'conversion of `ast.arguments`, the constructor of named tuples', 'alignment of defaults as a list lemma; acceptance compared with the call specification of the definition')
plan('C29', 'the stub parser, the evaluator with its state and the lookup of callables; what Python does with objects is a parameter that never raises the private exception class', 'every evaluator function is shown not to raise the private exception class, so `inspect` is not consulted; names of the parameters are followed through construction and binding')
plan('C28 C30 C31 C60 C63 C64', 'dispatch of `from_callable`, lookup of paths and constructors; live objects are parameters', 'induction over nested callables and over ancestors')
plan('C32 C33 C34 C35 C36 C37 C38 C61', '`scoping.resolve_object_path` with a recursion limit', 'induction over the limit; measures on unvisited star imports; ranks of references; divergence by induction')
plan('C39 C40 C41 C42 C43 C44 C45 C65 C67 C68', 'the state parser of `stubs.py` on abstract stub syntax', 'invariants preserved by every visitor, by induction over statements and the limit')
plan('C46 C47 C66 C69 C70 C71 C72', 'specialisation of generic bases', 'structural induction over trees for substitution; invariants of the registration; witnesses')
plan('C49', '`recursively_iterate_children` as a queue', 'induction over the queue with the multiset of pending subtrees')
plan('C50 C58 C59', '`catalog` paths, `sources`, `discovery`', 'list and string lemmas')
plan('C51 C52 C74', '`pretty.repr_from`, `caching.save/load`', 'printer and reader round trip at the level of characters; the limits of the tokenizer (brackets, digits) are a scan of the text, computed for the printed text of every value; every proper prefix is rejected')
plan('C53 C54', 'start-up decision and cache file name', 'induction over histories of processes')
plan('C55 C56', '`call_in_process` as one small-step machine per thread', 'induction over interleavings; witness')
plan('C57 C73', '`index.py` on object graphs', 'measure on unvisited classes; induction over paths')
plan('C75 C76 C77 C78 C79', '`evaluation.py` with Python itself as a parameter', 'mutual structural induction over expressions; invariant of the caches; measure on what is not cached yet')
plan('C80', 'postponed annotations', 'case analysis')
plan('C81 C82 C83 C84 C85 C86', 'the handlers of definitions, assignments and expressions, the choice among places, `_value_has_qualified_path` on a graph of live objects', 'unfolding of the handlers; acceptance of the built lists compared with the call specification; list inductions over places and definitions')
plan('C87 C88', 'the visitor of class statements with `_collect_type_args` and `_is_type_var_object_path`', 'relations between the tables before and after, kept by every visitor; class statements by induction over the limit')
plan('C89 C90', 'classes that only exist in stubs, of `evaluation.py`', 'induction over the members with what was gathered so far; every evaluation keeps cached classes, by mutual induction')
plan('C91', '`conversion.to_raw` (`ast.dump`) and `construction.from_raw` at the level of characters', 'printer and reader round trip by mutual structural induction over trees')
plan('C92', '`_process_classes_bases` and `_parse_stubs_state`', 'invariant of the loop over all classes: each class of `__specializations` stems from some base, and stays what it is; tables that were read have distinct classes of known modules; `C92_written_partial` follows the statements of the stub file by an invariant of the whole parser (names bound by no import or alias stay unbound, names bound by one import only mean what it says) and a relation back from the final tables')
plan('C93', 'modules that only exist in stubs, of `evaluation.py`', 'induction over the names; relations between caches before and after that every evaluation respects, by mutual induction')
plan('C94', '`conversion.to_str` and `_LazyEvaluator`', 'the text is read by a grammar with precedences of its own; by mutual structural induction over trees every text may be followed by what may follow an expression of its level')
plan('C95 C96', 'everything from `from_callable` to `all_set`', 'signatures made from definitions have no parameter that is both positional and keyword, nor have their bindings, so that C06 and C18 apply without exclusions; induction over nested partials down to the definition; C27 and C62')
plan('C100 C101', 'the stub parser and everything from `from_callable` to the conversion', 'induction over the limit: each statement changes the kinds of its module by its own definitions only; relation between tables before and after for how modules were read; then C40, C67, C71 and C99 composed')
plan('C97 C98 C99', '`catalog.qualified_path_from` on the attributes it reads, `index.py`, `modules._to_supported_qualified_paths`, `_from_callable`', 'splitting of joined names; C73, C38 and C30 composed: the own place survives the filter, all places resolve to it, so that one path is left')
plan('C102', '`from_callable` with the caches of the evaluation passed on from question to question (`Model/Session.lean`)', 'invariant of the caches that every evaluation keeps, answered or not, by mutual induction; expressions with a meaning evaluate to it in every such state; then through the conversion branch by branch')
plan('C103', 'everything from the stub sources and the index to `from_callable` with caches', 'C101 gives the place and the definitions, C102 the independence of earlier questions, C76 the values of annotations, C25, C26 and C81 the conversion')
plan('C104', 'as for C103, and `PlainSignature.bind`, `OverloadedSignature.bind`', 'the answer before binding as in C103; a signature whose first parameters are positional only is bound by leaving them out')
plan('C105', '`evaluate_qualified_path`, `evaluate_statement_node` and the collection of dependencies', 'the names of the dependencies are those in decorators and defaults; induction over the members with an invariant of the two namespaces; a concrete decorated function for the negation')
plan('C106', '`file_system.find_files_paths` on trees of directories (`Model/FileSystem.lean`) and `sources.py`', 'mutual induction over the tree for `os.walk`; names of files are split at their dots; C59 for the names of modules; a concrete `lib-dynload` for the negation')
plan('C107', '`annotated.are_equal` and the `==` of `typing` objects as in C19', 'strong induction over the left annotation, once for `==` and once for `are_equal`; the specification is a separate inductive relation; two concrete pairs of annotations for the negation')
plan('C108', '`from_callable` with the caches of the evaluation passed on (`Model/Session.lean`); what Python does with objects is a parameter that never raises the private exception class', 'the answer is compared with the one of an evaluation that always gives `Any`: both take the same branches, function by function, and end in signatures with the same parameters but for annotations and defaults')
plan('C109', 'everything from `from_callable` (with caches) to `all_set`, and from stub sources for the last two theorems', 'the parameters of a signature declare the formal parameters as read, one by one; acceptance depends on names, kinds and requiredness only; then as for C95, C101 and C108')
plan('C110', '`_from_statement_node` and what it calls, then everything from `from_callable` on', 'the conversion succeeds exactly if every step does; the parameters as read are legal because those written are; binding the first parameter of a method always succeeds')
plan('C111', '`from_callable` with caches, `resolve_qualified_paths`, `_from_raw_signature`', 'nothing resolves in a module without stubs, so that the answer is that for the report of `inspect`; its conversion is legal exactly without repeated variadics; then C05, C06, C08 and C09 for all calls')
plan('C112', '`from_callable` on partial objects, `PlainSignature.bind` and `OverloadedSignature.bind`', 'C110 for the callable; the overloads that expect the arguments are those that can be completed (C08), and all of them have to be bound (C05), which fails exactly for repeated names')
plan('C113', 'processes with their steps as a transition relation over the shared files (`Model/Overlap.lean`)', 'invariants of all steps: a file written by processes of one version has at each position the right character or a null character, which the tokenizer rejects; without overlaps the files are beginnings of saved texts; concrete interleavings for the negation')
plan('C114', 'reading of stub files and processing of bases with the order of sets as a parameter (`Model/Stubs.lean`, `Model/Specialization.lean`)', 'two runs with different orders are compared step by step: reading them ends in equal tables, because looking up names in modules that are fully read changes nothing; specialisations end in tables that differ in the order of references only; concrete star imports for the negation')
plan('C115', 'reading of stub files, `_process_classes_bases`, `resolve_object_path`, index of the library and lookup of signatures (`Model/Stubs.lean`, `Model/Specialization.lean`, `Model/Scoping.lean`, `Model/Index.lean`, `Model/Signatures.lean`)', 'the superclasses recorded for the class are those of its bases in order (as for C92); the invariant of the loop over all classes tells from which base, own or arising from a specialisation (`MayBeBase`), each specialisation stems; the resolution of the member tries the superclasses in order; with C98 and C99 this carries over to signatures')
plan('C116', '`resolve_object_path` (`Model/Scoping.lean`) on arbitrary tables; the method resolution order is specified by its own relation (`Spec/Linear.lean`: merge of linearisations, `object` as implicit base)', 'induction on the derivation of the order: bases that are known classes are asked in turn whatever modules were visited; the order of an ancestor is a sublist of the order, without repetitions; where classes are inherited in one way only, the merge is the concatenation; `written_hierarchy` (`Props/WrittenBases.lean`) gets the hierarchy from stub files with C92')
plan('C117', 'the index of the library (`Model/Catalog.lean`), its filtering by the stub tables, `resolve_object_path` and `from_callable` (`Model/Signatures.lean`)', 'the place of the method is listed in the index (C98), the resolution of it is the subject of C116, and `fromCallable_at` (`Lemmas/InheritedSignature.lean`) carries it through `from_callable`; that the filtering did not exceed the recursion limit follows from it having ended; `C117_written_partial` (and `C115_written_partial` for generic bases) carry it through sessions with the argument of C103; `C117_sources_partial` and `C117_bound_partial` take hierarchy and definitions from the stub files (C92, C100); the refutation computes both signatures in a diamond')
plan('C118', 'reading of stub files and processing of bases for an arbitrary list of modules (`Model/Stubs.lean`, `Model/Specialization.lean`)', 'a reading in any order is compared with the one in turn, step by step: whenever the latter looks at a module that was read before, the former has read it as well or reads it now, with the same outcome, by induction over the modules in turn (`Lemmas/ModuleOrder.lean`); modules that were visited are left alone (C39), and processing bases changes superclasses and `__specializations` only; C92 for superclasses; two pairs of modules that need each other for the negation; files that use only what comes before open nothing else, statement by statement (`Lemmas/ReadingOrder.lean`)')
plan('C119', 'reading of stub files and processing of bases for an arbitrary list of modules (`Model/Stubs.lean`, `Model/Specialization.lean`), sessions with evaluation (`Model/Session.lean`)', 'sessions only look tables up, function by function (`Lemmas/SessionTables.lean`); by C118 the states before the bases are processed look alike, and if each base means something whatever superclasses are recorded, processing only adds the meanings to the superclasses; names of classes of the module, of builtin classes and of what is imported mean the same in all tables that have the definitions and references read from the files (`Lemmas/WrittenOrder.lean`)')
