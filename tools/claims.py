# c(property, status, theorems, note)
c('C01', 'proved', 'C01_plainSignature_accepts_iff', 'constructor = legality of parameter lists, otherwise ValueError')
c('C02', 'proved', 'C02_parameter_constructors C02_constructible_iff_valid', 'all kinds, defaults and non-kind arguments')
c('C03', 'proved', 'C03_bind_legal C03_overloaded_bind_legal', 'plain and overloaded')
c('C04', 'proved', 'C04_bind_nothing_plain C04_bind_nothing', 'plain and overloaded')
c('C05', 'partial', 'C05_expects_iff_bind_partial C05_refuted C05_refuted_positional_only C05_collision_always_raises C05_bind_iff',
  'false as stated: with **kwargs, a keyword repeating the name of a positionally filled parameter is expected but bind raises; proved outside that case')
c('C06', 'partial', 'C06_allSet_iff_accepts_partial C06_accepts_implies_allSet C06_overloaded_partial C06_refuted C06_accepts_iff C06_overloaded_iff',
  'false as stated: g(a, **kw) with (1, a=2); proved outside that case, and one direction always')
c('C07', 'proved', 'C07_allSet_implies_expects_plain C07_allSet_implies_expects', '')
c('C08', 'proved', 'C08_expects_iff_completable C08_overloaded C08_completable_iff', '')
c('C09', 'partial', 'C09_bind_partial_application_partial C09_bind_partial_application_no_var_keyword C09_refuted C09_combined_iff',
  'false as stated with **kwargs: after g.bind(1) the call (a=2) is accepted; proved outside that case')
c('C10', 'partial', 'C10_bind_twice_partial C10_refuted C10_refuted_positional_only C10_at_once_iff',
  'false as stated with **kwargs and a keyword repeating a positionally filled name; proved outside that case')
c('C11', 'partial', 'C11_bound_keyword_partial C11_refuted',
  'false as stated: an existing default is kept; proved with the exact default')
c('C12', 'proved', 'C12_bind_frame', '')
c('C13', 'partial', 'C13_expects_downward_plain C13_expects_downward C13_bind_downward_plain C13_bind_downward_partial C13_overloaded_bind_refuted',
  'expects: all signatures; bind: all plain signatures; bind of overloaded ones is a counterexample')
c('C14', 'proved', 'C14_keyword_order', '')
c('C15', 'proved', 'C15_values_irrelevant C15_bind_values_irrelevant', '')
c('C16', 'partial', 'C16_overloaded_bind_partial C16_result C16_refuted C16_bind_iff',
  'false as stated: one colliding overload makes the whole bind raise; result half holds always')
c('C17', 'proved', 'C17_combine C17_combine_groups', '')
c('C18', 'partial', 'C18_overloaded_partial_application_partial C18_refuted C18_complete C18_combined_iff', 'same exclusion as C09')
c('C19', 'partial', 'C19_refl_partial C19_equivalence_partial C19_refl_refuted C19_symm_refuted C19_symm_refuted_nested C19_refuted',
  'false as stated: nan defaults are not reflexive; list == typing.List and List[int] == list[int] only one way round; proved for regular values')
c('C20', 'partial', 'C20_equal_hash_partial C20_refuted',
  'false as stated: distinct equal type variables hash by identity; proved where are_equal refines ==')
c('C21', 'proved', 'C21_pickle_roundtrip', 'parameters, plain and overloaded signatures')
c('C22', 'proved', 'C22_str_readable C22_str_readable_runtime', 'reader works on the whole text; hypothesis: names are identifiers, printed values are self-contained expressions (proved for to_repr when the runtime texts are)')
c('C23', 'proved', 'C23_plain_text C23_overloaded_text', '')
c('C32', 'proved', 'C32_resolved_is_defined', '')
c('C33', 'proved', 'C33_resolve_idempotent', '')
c('C34', 'partial', 'C34_reference_decides_partial C34_refuted C34_class_first C34_module_second C34_star_third C34_reference_fourth C34_builtins_last',
  'false as stated: any star import makes a builtins name win over an explicit import; each layer is proved separately with the nested answers as hypotheses')
c('C35', 'proved', 'C35_star_imports', 'single names without explicit imports; builtins accounted for')
c('C36', 'partial', 'C36_terminates_partial C36_refuted', 'false as stated: two modules importing the same name from each other recurse forever; proved for ranked tables')
c('C37', 'partial', 'C37_inherited_partial C37_object_partial C37_no_star_partial C37_refuted C37_refuted_object_name',
  'false as stated: a base found through a star import of the module of the class is lost, and a class named object has no fallback')
c('C38', 'proved', 'C38_index_filter', 'if no location raises anything but ObjectNotFound')
c('C61', 'partial', 'C61_only_not_found_partial C61_refuted C61_refuted_legal_import', 'false as stated: AssertionError for unresolvable imports, even legal circular ones; proved when imports point at definitions')
c('C24', 'partial', 'C24_inspect_fallback_partial C24_refuted C24_refuted_marker C24_refuted_collision', 'false as stated: several *args raise ValueError, a default equal to the internal marker is lost, and C06 collisions')
c('C25', 'proved', 'C25_defaults', 'the adjustment of the first parameter for methods and constructors is part of the statement')
c('C26', 'partial', 'C26_legal_partial C26_refuted C26_refuted_empty', "false as stated: defaults before '/' raise AttributeError, parameterless methods raise IndexError")
c('C27', 'partial', 'C27_never_over_accepts_partial C27_refuted C27_refuted_static', 'false as stated: keywords repeating a positionally filled name with **kwargs; static methods with keyword-only first parameter')
c('C62', 'partial', 'C62_positional_calls_partial C62_refuted C62_refuted_static', "false as stated: parameters before '/' are dropped, the first parameter of a static method is required; proved for the other definitions in all roles")
c('C28', 'partial', 'C28_partial_is_bind_partial C28_session_partial C28_refuted C28_refuted_rebinding', 'first half holds; nested and flattened partials differ for keywords bound twice and for keywords repeating a positionally filled name with **kwargs')
c('C29', 'proved', 'C29_source C29_function C29_class C29_bound', 'from the source text tree to the signature, for every sequence of questions; names before / are not kept (see C62)')
c('C30', 'partial', 'C30_constructor_partial C30_own_constructor C30_locations C30_declared_class C30_refuted C30_refuted_namesake', 'false as stated: the constructor of a base class is looked up under the name of the derived class')
c('C31', 'partial', 'C31_not_found_never_escapes C31_session C31_fallback_partial C31_fallback_session_partial C31_undeclared_partial C31_refuted C31_refuted_kind C31_refuted_module', "second half holds; AttributeError leaks for defaults before '/', KeyError for missing kinds, AssertionError for functions whose __module__ is not a text")
c('C60', 'proved', 'C60_canonical', '')
c('C63', 'proved', 'C63_legal C63_session', '')
c('C64', 'partial', 'C64_instance_partial C64_class_partial C64_refuted', 'false as stated: builtin class methods such as dict.fromkeys keep their first parameter; class methods written in Python are not looked up in the stubs at all')
c('C39', 'proved', 'C39_read_once C39_revisit C39_others', '')
c('C40', 'proved', 'C40_recorded_defined C40_parsed', 'also when the parse ends with an exception')
c('C41', 'partial', 'C41_branch_partial C41_untaken_irrelevant C41_refuted', 'false as stated: a test that is a single name raises NameError; proved for all other tests; untaken branches never matter')
c('C42', 'proved', 'C42_import C42_from C42_resolve', '')
c('C43', 'partial', 'C43_module_alias_partial C43_refuted', 'false as stated: aliases in classes are bound at module level')
c('C44', 'partial', 'C44_relative_partial C44_absolute C44_refuted', 'false as stated: imports beyond the top-level package are accepted; proved for all imports Python accepts')
c('C45', 'partial', 'C45_collected_partial C45_refuted', 'false as stated: the order of nested arguments is wrong')
c('C48', 'partial', 'C48_constructor_partial C48_recorded C48_refuted', 'false as stated: fields below version checks are forgotten')
c('C49', 'proved', 'C49_each_once C49_shallow_first C49_ends', 'on expression nodes')
c('C65', 'partial', 'C65_terminates_partial C65_refuted', 'false as stated: star-import cycles are looked through forever; proved without such cycles')
c('C67', 'partial', 'C67_complete_partial C67_nothing_else C67_refuted', 'false as stated: an unresolvable name in a module read during the lookup of another name leaves it half read without an error')
c('C68', 'proved', 'C68_limit_irrelevant', '')
c('C46', 'partial', 'C46_substitution_partial C46_members_partial C46_refuted C46_attribute_of_call', 'false as stated: attributes of parameters are not replaced, attributes of calls raise TypeError')
c('C47', 'partial', 'C47_plain_partial C47_words_partial C47_refuted C47_modules_refuted', 'false as stated: A[b.C] and A[b, C] share an entry, so do equally named bases of different modules')
c('C66', 'partial', 'C66_direct_partial C66_refuted', 'false as stated: only two levels of ancestors are registered')
c('C69', 'partial', 'C66_direct_partial C69_refuted C69_witness', 'false as stated: the first specialisation changes the stored bases of the generic class')
c('C70', 'partial', 'C70_fresh_partial C70_refuted', 'false as stated: references are kept by bare name, the last writer wins')
c('C71', 'proved', 'C71_modules_kept', 'also when processing ends with an exception')
c('C72', 'partial', 'C72_plain_partial C72_processable_partial C72_read_partial C72_refuted C72_nested_class C72_list_argument C72_unknown_argument', 'false as stated: nested classes raise KeyError, list arguments TypeError, arguments of inherited bases are looked for in the wrong module; proved for plain bases and for subscripted ones whose members and names are recorded')
c('C50', 'partial', 'C50_join_split C50_split_join_partial C50_to_path C50_chain C50_chain_injective C50_parent C50_refuted', 'false as stated: the empty path comes back as one empty part')
c('C57', 'proved', 'C57_terminates C57_sound C57_named', 'attributes are the entries of vars()')
c('C58', 'proved', 'C58_supported C58_none_below C58_platform', '')
c('C59', 'partial', 'C59_module C59_stub C59_stubs_distinct_partial C59_package C59_stub_used C59_package_source C59_stdlib C59_refuted C59_package_refuted', 'false as stated: x.py and x.so give one module, and an __init__ with a tagged suffix is not seen as a package; proved for stub files and simple suffixes')
c('C73', 'proved', 'C73_complete', '')
c('C55', 'partial', 'C55_exclusive_partial C55_shared_lock C55_never_stuck C55_refuted', 'false as stated: every call makes its own lock, so overlapping calls leave __main__ replaced; proved for calls that do not overlap, and for all interleavings if the lock were shared')
c('C56', 'partial', 'C56_outcome_partial C56_blocked_iff C56_broken C56_refuted', 'false as stated: an unpicklable result, an exit or a kill blocks the caller for ever')
c('C51', 'partial', 'C51_roundtrip_partial C51_limits C51_refuted', 'false as stated: CPython rejects texts with more than 200 nested brackets or numbers of more than 4300 digits; proved for all other values (numbers, strings, tuples, lists, sets and dicts), and that exactly these are rejected; the reader of literals is part of the trusted specification')
c('C52', 'proved', 'C52_cut C52_full', 'that the complete file is loaded holds within the limits of the tokenizer (see C51); the compiled file and concurrent writers are not modelled')
c('C53', 'partial', 'C53_main_partial C53_child_partial C53_settled C53_refuted', 'false as stated: child processes start with empty tables when there is no usable cache; proved for the main process')
c('C54', 'partial', 'C54_injective_partial C54_modules C54_refuted', 'false as stated for components with underscores; proved for components without')
c('C74', 'partial', 'C74_equal_partial C74_refuted', 'false as stated: sets are written in the order of iteration; proved for values without sets')
c('C75', 'partial', 'C75_value_partial C75_lenient_partial C75_attributes C75_refuted', 'false as stated: subscribing a class that is not generic gives the class; proved where Python gives a value, and exactly for Python with the two fallbacks')
c('C76', 'partial', 'C76_meaning_partial C76_whatever_partial C76_parsed_partial C76_refuted', 'false as stated for aliases that use each other; proved for expressions without circular aliases, whatever was asked before within the recursion limit')
c('C77', 'partial', 'C77_available_partial C77_refuted', 'false as stated: the placeholder of a failed alias stays in the cache; proved for names that exist at run time')
c('C78', 'partial', 'C78_functions_partial C78_refuted', 'false as stated for assignments (the first one is cached); proved for functions')
c('C79', 'partial', 'C79_terminates_partial C79_refuted', 'false as stated for stub classes with themselves as an attribute; proved where no class exists in stubs only')
c('C80', 'proved', 'C80_postponed', 'no lambda in defaults')
c('C81', 'partial', 'C81_definition_partial C81_class_partial C81_refuted C81_async_ignored', 'false as stated: __new__ without annotation returns Any, and async functions are treated as plain ones; proved for definitions, __init__ and the fallback')
c('C82', 'partial', 'C82_callable_partial C82_refuted', 'false as stated for Concatenate, which gets (*args, **kwargs); proved for lists, ... and parameter specifications')
c('C83', 'partial', 'C83_alias_partial C83_refuted C83_refuted_method', 'false as stated for overloaded functions and methods; proved for functions at module level with one definition')
c('C84', 'partial', 'C84_places C84_own_places_partial C84_refuted', 'false as stated for objects that are not listed in the index; proved for listed ones in loaded modules')
c('C85', 'partial', 'C85_next_place_partial C85_refuted', 'false as stated: a first place without definitions ends the search; proved if the earlier places have definitions')
c('C86', 'partial', 'C86_type_variable_partial C86_refuted', 'false as stated: a type variable with neither raises ValueError; proved with bound or constraints')
c('C87', 'proved', 'C87_bases', '')
c('C88', 'partial', 'C88_parameters C88_known_partial C88_refuted', 'false as stated: variables that a module only passes on are overlooked; proved: what is recorded, and exactness for names whose meaning is known')
c('C89', 'partial', 'C89_members_partial C89_refuted C89_nested_refuted', 'false as stated: names used by assigned members become members, and classes with nested classes raise KeyError; proved for classes of functions and annotations')
c('C90', 'partial', 'C90_once_partial C90_alias_partial C90_refuted', 'false as stated: a class whose member uses an alias of the class is made twice; proved for all names of the class, and aliases evaluated later')
c('C91', 'partial', 'C91_roundtrip_partial C91_error_partial C91_refuted C91_nested_refuted', 'false as stated: infinite numbers, numbers of more than 4300 digits and more than 200 nested brackets raise errors; proved for all other trees, and that these are the only ones')
c('C92', 'partial', 'C92_superclasses_partial C92_means_partial C92_written_partial C92_refuted', 'false as stated: the bases of a generic class that is specialised before they are processed are rewritten for good; proved for classes without type parameters, and from the stub files (C92_written_partial) for bases that are names of classes of the module, of builtin classes or of what is imported by name, or dotted names of classes of imported modules')
c('C93', 'partial', 'C93_attributes_partial C93_refuted', 'false as stated: a name with an annotation and no value raises TypeError; proved where the evaluation succeeds')
c('C94', 'partial', 'C94_reads_partial C94_refuted', 'false as stated: texts lose their quotes, ... becomes Ellipsis and operands of operators their parentheses; proved for annotations without these')
c('C95', 'partial', 'C95_declared_partial C95_from_source_partial C95_session_partial C95_refuted', "false as stated: keywords that repeat the name of a parameter filled positionally, in the presence of **kwargs; proved for other calls and definitions without '/'")
c('C96', 'partial', 'C96_accepted_partial C96_from_source_partial C96_session_partial C96_refuted', "false as stated: parameters before '/' are dropped; proved for definitions without '/'")
c('C97', 'proved', 'C97_named C97_distinct C97_fails C97_without_module C97_nameless', '')
c('C98', 'proved', 'C98_own_place C98_fails C57_named', '')
c('C99', 'proved', 'C99_own_stub C99_own_class', 'the evaluation of annotations is a parameter')
c('C100', 'proved', 'C100_kinds C100_nodes C100_in_turn C100_asked', '')
c('C101', 'proved', 'C101_function C101_class C101_signature C101_class_signature', 'the evaluation of annotations is a parameter')
c('C102', 'partial', 'C102_settled_partial C102_parsed_partial C102_refuted', 'false as stated for annotations with aliases that use each other; proved for callables whose annotations have a meaning or use names that exist at run time, after any callables within the recursion limit, whatever entries of weak caches vanish in between')
c('C103', 'proved', 'C103_function C103_class C103_new', 'the stub files assign to single names, without binary operators other than |, & and ^ in the values, and typing.ForwardRef accepts the names of aliases')
c('C104', 'proved', 'C104_method', 'the stub files assign to single names, without binary operators other than |, & and ^ in the values, and typing.ForwardRef accepts the names of aliases')
c('C105', 'partial', 'C105_class_partial C105_builtins_partial C105_refuted', 'false as stated for functions outside of classes that use other names than those of builtins; proved for these, and for the methods of classes')
c('C106', 'partial', 'C106_library_partial C106_only C106_stubs_partial C106_files_partial C106_once C106_refuted C106_files_refuted', 'false as stated for extension modules in lib-dynload and for directories that are links; proved for the modules of a library without links outside of lib-dynload')
c('C107', 'partial', 'C107_partial C107_refuted C107_refuted_tuple', 'false as stated: Literal[1] equals Literal[True], and tuple equals tuple[()]; proved for annotations in which nothing has an empty list of arguments and literal values are not both numbers and booleans')
c('C108', 'proved', 'C108_alike C108_calls', '')
c('C109', 'proved', 'C109_exact C109_session C109_source C109_source_class', '')
c('C110', 'proved', 'C110_definition C110_callable C110_class C110_bound', '')
c('C111', 'proved', 'C111_error C111_exact C111_partials C24_exact', '')
c('C112', 'proved', 'C112_callable C112_class C112_bound', '')
c('C113', 'partial', 'C113_same_partial C113_uses C113_kept C113_alone_partial C113_refuted C113_refuted_upgrade', 'false as stated: writers of two versions overwrite parts of each other, and a reader can see the beginning of the old and the end of the new file; proved for any overlapping starts of one version, and for starts of any versions that do not overlap, with compiled files of any age')
c('C114', 'partial', 'C114_order_partial C114_refuted', 'false as stated: a star-imported module whose reading broke off is skipped when the first name of a test is looked up and searched for the second; proved unless a test of several names is in a module with star imports')
c('C115', 'partial', 'C115_found_partial C115_signature_partial C115_written_partial C115_refuted', 'false as stated: bases that are written alike in two modules but mean different classes share one specialisation, so that the members of the wrong class are found; proved for classes without type parameters of their own and bases whose identifier is used for one class with one list of arguments only')
c('C116', 'partial', 'C116_nothing C116_through_partial C116_branching_partial C116_through_written_partial C116_order_partial C116_branching_written_partial C116_refuted C116_refuted_diamond', 'false as stated: bases are searched depth first, and builtins.object with each of them, so that members of object hide those of the second base, and members of a common ancestor those of the class in between; proved for members to which all ways lead through one class (such as members defined once), for hierarchies in which no class but object is inherited in two ways with members that object does not have, without multiple inheritance for all members, and for members that no ancestor has; the bases may be those written in the stub files (C116_through_written_partial, C116_branching_written_partial); C116_order_partial: so in every order of the modules, if in some order they use only what comes before')
c('C117', 'partial', 'C117_through_partial C117_branching_partial C117_written_partial C117_sources_partial C117_bound_partial C117_refuted', 'false as stated for the same reason as C116: of a class that is inherited in two ways the declaration is taken although a class before it in the order has one (C117_refuted); proved in general if all ways to other classes with the method go through the one that declares it, and for hierarchies in which no class but object is inherited in two ways; from the stub files for classes with plain bases (C117_sources_partial), and bound to instances (C117_bound_partial)')
c('C118', 'partial', 'C118_read_partial C118_tables_partial C118_superclasses_partial C118_sources_partial C118_sources_tables_partial C118_written_partial C118_refuted C118_refuted_fails', 'false as stated: if two modules need each other, by a star import and by the import of a type variable, a class may lose its inherited members or reading may end in KeyError, depending on which module is visited first; proved for all orders and all recursion limits if there is an order in which reading a module never opens a module that comes later (superclasses for classes without type parameters of their own); such is an order in which modules star-import only modules before them, and import what begins the arguments of bases only from modules before them (C118_sources_partial, from the stub files); then the superclasses of a top level class are the classes its bases are written to be, in every order (C118_written_partial)')
c('C119', 'partial', 'C119_tables_partial C119_plain_partial C119_sources_partial C119_written_partial C119_refuted', 'false as stated: of two modules that need each other, one order gives a signature of an inherited method and the other one none. Proved: equal tables give equal answers; and for stub files that can be read in an order in which no module needs a later one, and whose bases are names that mean something whatever superclasses are recorded, the answers are the same for every order of the modules (C119_sources_partial has the condition on the order from the stub files, C119_written_partial the one on the bases as well). Missing: bases with arguments')
