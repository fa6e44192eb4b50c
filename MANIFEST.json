{
 "claims": [
  {
   "property": "C01",
   "status": "proved",
   "theorems": [
    "Paradigm.Props.C01_plainSignature_accepts_iff"
   ],
   "note": "constructor = legality of parameter lists, otherwise ValueError"
  },
  {
   "property": "C02",
   "status": "proved",
   "theorems": [
    "Paradigm.Props.C02_parameter_constructors",
    "Paradigm.Props.C02_constructible_iff_valid"
   ],
   "note": "all kinds, defaults and non-kind arguments"
  },
  {
   "property": "C03",
   "status": "proved",
   "theorems": [
    "Paradigm.Props.C03_bind_legal",
    "Paradigm.Props.C03_overloaded_bind_legal"
   ],
   "note": "plain and overloaded"
  },
  {
   "property": "C04",
   "status": "proved",
   "theorems": [
    "Paradigm.Props.C04_bind_nothing_plain",
    "Paradigm.Props.C04_bind_nothing"
   ],
   "note": "plain and overloaded"
  },
  {
   "property": "C05",
   "status": "partial",
   "theorems": [
    "Paradigm.Props.C05_expects_iff_bind_partial",
    "Paradigm.Props.C05_refuted",
    "Paradigm.Props.C05_refuted_positional_only",
    "Paradigm.Props.C05_collision_always_raises",
    "Paradigm.Props.C05_bind_iff"
   ],
   "note": "false as stated: with **kwargs, a keyword repeating the name of a positionally filled parameter is expected but bind raises; proved outside that case"
  },
  {
   "property": "C06",
   "status": "partial",
   "theorems": [
    "Paradigm.Props.C06_allSet_iff_accepts_partial",
    "Paradigm.Props.C06_accepts_implies_allSet",
    "Paradigm.Props.C06_overloaded_partial",
    "Paradigm.Props.C06_refuted",
    "Paradigm.Props.C06_accepts_iff",
    "Paradigm.Props.C06_overloaded_iff"
   ],
   "note": "false as stated: g(a, **kw) with (1, a=2); proved outside that case, and one direction always"
  },
  {
   "property": "C07",
   "status": "proved",
   "theorems": [
    "Paradigm.Props.C07_allSet_implies_expects_plain",
    "Paradigm.Props.C07_allSet_implies_expects"
   ],
   "note": ""
  },
  {
   "property": "C08",
   "status": "proved",
   "theorems": [
    "Paradigm.Props.C08_expects_iff_completable",
    "Paradigm.Props.C08_overloaded",
    "Paradigm.Props.C08_completable_iff"
   ],
   "note": ""
  },
  {
   "property": "C09",
   "status": "partial",
   "theorems": [
    "Paradigm.Props.C09_bind_partial_application_partial",
    "Paradigm.Props.C09_bind_partial_application_no_var_keyword",
    "Paradigm.Props.C09_refuted",
    "Paradigm.Props.C09_combined_iff"
   ],
   "note": "false as stated with **kwargs: after g.bind(1) the call (a=2) is accepted; proved outside that case"
  },
  {
   "property": "C10",
   "status": "partial",
   "theorems": [
    "Paradigm.Props.C10_bind_twice_partial",
    "Paradigm.Props.C10_refuted",
    "Paradigm.Props.C10_refuted_positional_only",
    "Paradigm.Props.C10_at_once_iff"
   ],
   "note": "false as stated with **kwargs and a keyword repeating a positionally filled name; proved outside that case"
  },
  {
   "property": "C100",
   "status": "proved",
   "theorems": [
    "Paradigm.Props.C100_kinds",
    "Paradigm.Props.C100_nodes",
    "Paradigm.Props.C100_in_turn",
    "Paradigm.Props.C100_asked"
   ],
   "note": ""
  },
  {
   "property": "C101",
   "status": "proved",
   "theorems": [
    "Paradigm.Props.C101_function",
    "Paradigm.Props.C101_class",
    "Paradigm.Props.C101_signature",
    "Paradigm.Props.C101_class_signature"
   ],
   "note": "the evaluation of annotations is a parameter"
  },
  {
   "property": "C102",
   "status": "partial",
   "theorems": [
    "Paradigm.Props.C102_settled_partial",
    "Paradigm.Props.C102_parsed_partial",
    "Paradigm.Props.C102_refuted"
   ],
   "note": "false as stated for annotations with aliases that use each other; proved for callables whose annotations have a meaning or use names that exist at run time, after any callables within the recursion limit, whatever entries of weak caches vanish in between"
  },
  {
   "property": "C103",
   "status": "proved",
   "theorems": [
    "Paradigm.Props.C103_function",
    "Paradigm.Props.C103_class",
    "Paradigm.Props.C103_new"
   ],
   "note": "the stub files assign to single names, without binary operators other than |, & and ^ in the values, and typing.ForwardRef accepts the names of aliases"
  },
  {
   "property": "C104",
   "status": "proved",
   "theorems": [
    "Paradigm.Props.C104_method"
   ],
   "note": "the stub files assign to single names, without binary operators other than |, & and ^ in the values, and typing.ForwardRef accepts the names of aliases"
  },
  {
   "property": "C105",
   "status": "partial",
   "theorems": [
    "Paradigm.Props.C105_class_partial",
    "Paradigm.Props.C105_builtins_partial",
    "Paradigm.Props.C105_refuted"
   ],
   "note": "false as stated for functions outside of classes that use other names than those of builtins; proved for these, and for the methods of classes"
  },
  {
   "property": "C106",
   "status": "partial",
   "theorems": [
    "Paradigm.Props.C106_library_partial",
    "Paradigm.Props.C106_only",
    "Paradigm.Props.C106_stubs_partial",
    "Paradigm.Props.C106_files_partial",
    "Paradigm.Props.C106_once",
    "Paradigm.Props.C106_refuted",
    "Paradigm.Props.C106_files_refuted"
   ],
   "note": "false as stated for extension modules in lib-dynload and for directories that are links; proved for the modules of a library without links outside of lib-dynload"
  },
  {
   "property": "C107",
   "status": "partial",
   "theorems": [
    "Paradigm.Props.C107_partial",
    "Paradigm.Props.C107_refuted",
    "Paradigm.Props.C107_refuted_tuple"
   ],
   "note": "false as stated: Literal[1] equals Literal[True], and tuple equals tuple[()]; proved for annotations in which nothing has an empty list of arguments and literal values are not both numbers and booleans"
  },
  {
   "property": "C108",
   "status": "proved",
   "theorems": [
    "Paradigm.Props.C108_alike",
    "Paradigm.Props.C108_calls"
   ],
   "note": ""
  },
  {
   "property": "C109",
   "status": "proved",
   "theorems": [
    "Paradigm.Props.C109_exact",
    "Paradigm.Props.C109_session",
    "Paradigm.Props.C109_source",
    "Paradigm.Props.C109_source_class"
   ],
   "note": ""
  },
  {
   "property": "C11",
   "status": "partial",
   "theorems": [
    "Paradigm.Props.C11_bound_keyword_partial",
    "Paradigm.Props.C11_refuted"
   ],
   "note": "false as stated: an existing default is kept; proved with the exact default"
  },
  {
   "property": "C110",
   "status": "proved",
   "theorems": [
    "Paradigm.Props.C110_definition",
    "Paradigm.Props.C110_callable",
    "Paradigm.Props.C110_class",
    "Paradigm.Props.C110_bound"
   ],
   "note": ""
  },
  {
   "property": "C111",
   "status": "proved",
   "theorems": [
    "Paradigm.Props.C111_error",
    "Paradigm.Props.C111_exact",
    "Paradigm.Props.C111_partials",
    "Paradigm.Props.C24_exact"
   ],
   "note": ""
  },
  {
   "property": "C112",
   "status": "proved",
   "theorems": [
    "Paradigm.Props.C112_callable",
    "Paradigm.Props.C112_class",
    "Paradigm.Props.C112_bound"
   ],
   "note": ""
  },
  {
   "property": "C113",
   "status": "partial",
   "theorems": [
    "Paradigm.Props.C113_same_partial",
    "Paradigm.Props.C113_uses",
    "Paradigm.Props.C113_kept",
    "Paradigm.Props.C113_alone_partial",
    "Paradigm.Props.C113_refuted",
    "Paradigm.Props.C113_refuted_upgrade"
   ],
   "note": "false as stated: writers of two versions overwrite parts of each other, and a reader can see the beginning of the old and the end of the new file; proved for any overlapping starts of one version, and for starts of any versions that do not overlap, with compiled files of any age"
  },
  {
   "property": "C114",
   "status": "partial",
   "theorems": [
    "Paradigm.Props.C114_order_partial",
    "Paradigm.Props.C114_refuted"
   ],
   "note": "false as stated: a star-imported module whose reading broke off is skipped when the first name of a test is looked up and searched for the second; proved unless a test of several names is in a module with star imports"
  },
  {
   "property": "C115",
   "status": "partial",
   "theorems": [
    "Paradigm.Props.C115_found_partial",
    "Paradigm.Props.C115_signature_partial",
    "Paradigm.Props.C115_written_partial",
    "Paradigm.Props.C115_refuted"
   ],
   "note": "false as stated: bases that are written alike in two modules but mean different classes share one specialisation, so that the members of the wrong class are found; proved for classes without type parameters of their own and bases whose identifier is used for one class with one list of arguments only"
  },
  {
   "property": "C116",
   "status": "partial",
   "theorems": [
    "Paradigm.Props.C116_nothing",
    "Paradigm.Props.C116_through_partial",
    "Paradigm.Props.C116_branching_partial",
    "Paradigm.Props.C116_through_written_partial",
    "Paradigm.Props.C116_order_partial",
    "Paradigm.Props.C116_branching_written_partial",
    "Paradigm.Props.C116_refuted",
    "Paradigm.Props.C116_refuted_diamond"
   ],
   "note": "false as stated: bases are searched depth first, and builtins.object with each of them, so that members of object hide those of the second base, and members of a common ancestor those of the class in between; proved for members to which all ways lead through one class (such as members defined once), for hierarchies in which no class but object is inherited in two ways with members that object does not have, without multiple inheritance for all members, and for members that no ancestor has; the bases may be those written in the stub files (C116_through_written_partial, C116_branching_written_partial); C116_order_partial: so in every order of the modules, if in some order they use only what comes before"
  },
  {
   "property": "C117",
   "status": "partial",
   "theorems": [
    "Paradigm.Props.C117_through_partial",
    "Paradigm.Props.C117_branching_partial",
    "Paradigm.Props.C117_written_partial",
    "Paradigm.Props.C117_sources_partial",
    "Paradigm.Props.C117_bound_partial",
    "Paradigm.Props.C117_refuted"
   ],
   "note": "false as stated for the same reason as C116: of a class that is inherited in two ways the declaration is taken although a class before it in the order has one (C117_refuted); proved in general if all ways to other classes with the method go through the one that declares it, and for hierarchies in which no class but object is inherited in two ways; from the stub files for classes with plain bases (C117_sources_partial), and bound to instances (C117_bound_partial)"
  },
  {
   "property": "C118",
   "status": "partial",
   "theorems": [
    "Paradigm.Props.C118_read_partial",
    "Paradigm.Props.C118_tables_partial",
    "Paradigm.Props.C118_superclasses_partial",
    "Paradigm.Props.C118_sources_partial",
    "Paradigm.Props.C118_sources_tables_partial",
    "Paradigm.Props.C118_written_partial",
    "Paradigm.Props.C118_refuted",
    "Paradigm.Props.C118_refuted_fails"
   ],
   "note": "false as stated: if two modules need each other, by a star import and by the import of a type variable, a class may lose its inherited members or reading may end in KeyError, depending on which module is visited first; proved for all orders and all recursion limits if there is an order in which reading a module never opens a module that comes later (superclasses for classes without type parameters of their own); such is an order in which modules star-import only modules before them, and import what begins the arguments of bases only from modules before them (C118_sources_partial, from the stub files); then the superclasses of a top level class are the classes its bases are written to be, in every order (C118_written_partial)"
  },
  {
   "property": "C119",
   "status": "partial",
   "theorems": [
    "Paradigm.Props.C119_tables_partial",
    "Paradigm.Props.C119_plain_partial",
    "Paradigm.Props.C119_sources_partial",
    "Paradigm.Props.C119_written_partial",
    "Paradigm.Props.C119_refuted"
   ],
   "note": "false as stated: of two modules that need each other, one order gives a signature of an inherited method and the other one none. Proved: equal tables give equal answers; and for stub files that can be read in an order in which no module needs a later one, and whose bases are names that mean something whatever superclasses are recorded, the answers are the same for every order of the modules (C119_sources_partial has the condition on the order from the stub files, C119_written_partial the one on the bases as well). Missing: bases with arguments"
  },
  {
   "property": "C12",
   "status": "proved",
   "theorems": [
    "Paradigm.Props.C12_bind_frame"
   ],
   "note": ""
  },
  {
   "property": "C13",
   "status": "partial",
   "theorems": [
    "Paradigm.Props.C13_expects_downward_plain",
    "Paradigm.Props.C13_expects_downward",
    "Paradigm.Props.C13_bind_downward_plain",
    "Paradigm.Props.C13_bind_downward_partial",
    "Paradigm.Props.C13_overloaded_bind_refuted"
   ],
   "note": "expects: all signatures; bind: all plain signatures; bind of overloaded ones is a counterexample"
  },
  {
   "property": "C14",
   "status": "proved",
   "theorems": [
    "Paradigm.Props.C14_keyword_order"
   ],
   "note": ""
  },
  {
   "property": "C15",
   "status": "proved",
   "theorems": [
    "Paradigm.Props.C15_values_irrelevant",
    "Paradigm.Props.C15_bind_values_irrelevant"
   ],
   "note": ""
  },
  {
   "property": "C16",
   "status": "partial",
   "theorems": [
    "Paradigm.Props.C16_overloaded_bind_partial",
    "Paradigm.Props.C16_result",
    "Paradigm.Props.C16_refuted",
    "Paradigm.Props.C16_bind_iff"
   ],
   "note": "false as stated: one colliding overload makes the whole bind raise; result half holds always"
  },
  {
   "property": "C17",
   "status": "proved",
   "theorems": [
    "Paradigm.Props.C17_combine",
    "Paradigm.Props.C17_combine_groups"
   ],
   "note": ""
  },
  {
   "property": "C18",
   "status": "partial",
   "theorems": [
    "Paradigm.Props.C18_overloaded_partial_application_partial",
    "Paradigm.Props.C18_refuted",
    "Paradigm.Props.C18_complete",
    "Paradigm.Props.C18_combined_iff"
   ],
   "note": "same exclusion as C09"
  },
  {
   "property": "C19",
   "status": "partial",
   "theorems": [
    "Paradigm.Props.C19_refl_partial",
    "Paradigm.Props.C19_equivalence_partial",
    "Paradigm.Props.C19_refl_refuted",
    "Paradigm.Props.C19_symm_refuted",
    "Paradigm.Props.C19_symm_refuted_nested",
    "Paradigm.Props.C19_refuted"
   ],
   "note": "false as stated: nan defaults are not reflexive; list == typing.List and List[int] == list[int] only one way round; proved for regular values"
  },
  {
   "property": "C20",
   "status": "partial",
   "theorems": [
    "Paradigm.Props.C20_equal_hash_partial",
    "Paradigm.Props.C20_refuted"
   ],
   "note": "false as stated: distinct equal type variables hash by identity; proved where are_equal refines =="
  },
  {
   "property": "C21",
   "status": "proved",
   "theorems": [
    "Paradigm.Props.C21_pickle_roundtrip"
   ],
   "note": "parameters, plain and overloaded signatures"
  },
  {
   "property": "C22",
   "status": "proved",
   "theorems": [
    "Paradigm.Props.C22_str_readable",
    "Paradigm.Props.C22_str_readable_runtime"
   ],
   "note": "reader works on the whole text; hypothesis: names are identifiers, printed values are self-contained expressions (proved for to_repr when the runtime texts are)"
  },
  {
   "property": "C23",
   "status": "proved",
   "theorems": [
    "Paradigm.Props.C23_plain_text",
    "Paradigm.Props.C23_overloaded_text"
   ],
   "note": ""
  },
  {
   "property": "C24",
   "status": "partial",
   "theorems": [
    "Paradigm.Props.C24_inspect_fallback_partial",
    "Paradigm.Props.C24_refuted",
    "Paradigm.Props.C24_refuted_marker",
    "Paradigm.Props.C24_refuted_collision"
   ],
   "note": "false as stated: several *args raise ValueError, a default equal to the internal marker is lost, and C06 collisions"
  },
  {
   "property": "C25",
   "status": "proved",
   "theorems": [
    "Paradigm.Props.C25_defaults"
   ],
   "note": "the adjustment of the first parameter for methods and constructors is part of the statement"
  },
  {
   "property": "C26",
   "status": "partial",
   "theorems": [
    "Paradigm.Props.C26_legal_partial",
    "Paradigm.Props.C26_refuted",
    "Paradigm.Props.C26_refuted_empty"
   ],
   "note": "false as stated: defaults before '/' raise AttributeError, parameterless methods raise IndexError"
  },
  {
   "property": "C27",
   "status": "partial",
   "theorems": [
    "Paradigm.Props.C27_never_over_accepts_partial",
    "Paradigm.Props.C27_refuted",
    "Paradigm.Props.C27_refuted_static"
   ],
   "note": "false as stated: keywords repeating a positionally filled name with **kwargs; static methods with keyword-only first parameter"
  },
  {
   "property": "C28",
   "status": "partial",
   "theorems": [
    "Paradigm.Props.C28_partial_is_bind_partial",
    "Paradigm.Props.C28_session_partial",
    "Paradigm.Props.C28_refuted",
    "Paradigm.Props.C28_refuted_rebinding"
   ],
   "note": "first half holds; nested and flattened partials differ for keywords bound twice and for keywords repeating a positionally filled name with **kwargs"
  },
  {
   "property": "C29",
   "status": "proved",
   "theorems": [
    "Paradigm.Props.C29_source",
    "Paradigm.Props.C29_function",
    "Paradigm.Props.C29_class",
    "Paradigm.Props.C29_bound"
   ],
   "note": "from the source text tree to the signature, for every sequence of questions; names before / are not kept (see C62)"
  },
  {
   "property": "C30",
   "status": "partial",
   "theorems": [
    "Paradigm.Props.C30_constructor_partial",
    "Paradigm.Props.C30_own_constructor",
    "Paradigm.Props.C30_locations",
    "Paradigm.Props.C30_declared_class",
    "Paradigm.Props.C30_refuted",
    "Paradigm.Props.C30_refuted_namesake"
   ],
   "note": "false as stated: the constructor of a base class is looked up under the name of the derived class"
  },
  {
   "property": "C31",
   "status": "partial",
   "theorems": [
    "Paradigm.Props.C31_not_found_never_escapes",
    "Paradigm.Props.C31_session",
    "Paradigm.Props.C31_fallback_partial",
    "Paradigm.Props.C31_fallback_session_partial",
    "Paradigm.Props.C31_undeclared_partial",
    "Paradigm.Props.C31_refuted",
    "Paradigm.Props.C31_refuted_kind",
    "Paradigm.Props.C31_refuted_module"
   ],
   "note": "second half holds; AttributeError leaks for defaults before '/', KeyError for missing kinds, AssertionError for functions whose __module__ is not a text"
  },
  {
   "property": "C32",
   "status": "proved",
   "theorems": [
    "Paradigm.Props.C32_resolved_is_defined"
   ],
   "note": ""
  },
  {
   "property": "C33",
   "status": "proved",
   "theorems": [
    "Paradigm.Props.C33_resolve_idempotent"
   ],
   "note": ""
  },
  {
   "property": "C34",
   "status": "partial",
   "theorems": [
    "Paradigm.Props.C34_reference_decides_partial",
    "Paradigm.Props.C34_refuted",
    "Paradigm.Props.C34_class_first",
    "Paradigm.Props.C34_module_second",
    "Paradigm.Props.C34_star_third",
    "Paradigm.Props.C34_reference_fourth",
    "Paradigm.Props.C34_builtins_last"
   ],
   "note": "false as stated: any star import makes a builtins name win over an explicit import; each layer is proved separately with the nested answers as hypotheses"
  },
  {
   "property": "C35",
   "status": "proved",
   "theorems": [
    "Paradigm.Props.C35_star_imports"
   ],
   "note": "single names without explicit imports; builtins accounted for"
  },
  {
   "property": "C36",
   "status": "partial",
   "theorems": [
    "Paradigm.Props.C36_terminates_partial",
    "Paradigm.Props.C36_refuted"
   ],
   "note": "false as stated: two modules importing the same name from each other recurse forever; proved for ranked tables"
  },
  {
   "property": "C37",
   "status": "partial",
   "theorems": [
    "Paradigm.Props.C37_inherited_partial",
    "Paradigm.Props.C37_object_partial",
    "Paradigm.Props.C37_no_star_partial",
    "Paradigm.Props.C37_refuted",
    "Paradigm.Props.C37_refuted_object_name"
   ],
   "note": "false as stated: a base found through a star import of the module of the class is lost, and a class named object has no fallback"
  },
  {
   "property": "C38",
   "status": "proved",
   "theorems": [
    "Paradigm.Props.C38_index_filter"
   ],
   "note": "if no location raises anything but ObjectNotFound"
  },
  {
   "property": "C39",
   "status": "proved",
   "theorems": [
    "Paradigm.Props.C39_read_once",
    "Paradigm.Props.C39_revisit",
    "Paradigm.Props.C39_others"
   ],
   "note": ""
  },
  {
   "property": "C40",
   "status": "proved",
   "theorems": [
    "Paradigm.Props.C40_recorded_defined",
    "Paradigm.Props.C40_parsed"
   ],
   "note": "also when the parse ends with an exception"
  },
  {
   "property": "C41",
   "status": "partial",
   "theorems": [
    "Paradigm.Props.C41_branch_partial",
    "Paradigm.Props.C41_untaken_irrelevant",
    "Paradigm.Props.C41_refuted"
   ],
   "note": "false as stated: a test that is a single name raises NameError; proved for all other tests; untaken branches never matter"
  },
  {
   "property": "C42",
   "status": "proved",
   "theorems": [
    "Paradigm.Props.C42_import",
    "Paradigm.Props.C42_from",
    "Paradigm.Props.C42_resolve"
   ],
   "note": ""
  },
  {
   "property": "C43",
   "status": "partial",
   "theorems": [
    "Paradigm.Props.C43_module_alias_partial",
    "Paradigm.Props.C43_refuted"
   ],
   "note": "false as stated: aliases in classes are bound at module level"
  },
  {
   "property": "C44",
   "status": "partial",
   "theorems": [
    "Paradigm.Props.C44_relative_partial",
    "Paradigm.Props.C44_absolute",
    "Paradigm.Props.C44_refuted"
   ],
   "note": "false as stated: imports beyond the top-level package are accepted; proved for all imports Python accepts"
  },
  {
   "property": "C45",
   "status": "partial",
   "theorems": [
    "Paradigm.Props.C45_collected_partial",
    "Paradigm.Props.C45_refuted"
   ],
   "note": "false as stated: the order of nested arguments is wrong"
  },
  {
   "property": "C46",
   "status": "partial",
   "theorems": [
    "Paradigm.Props.C46_substitution_partial",
    "Paradigm.Props.C46_members_partial",
    "Paradigm.Props.C46_refuted",
    "Paradigm.Props.C46_attribute_of_call"
   ],
   "note": "false as stated: attributes of parameters are not replaced, attributes of calls raise TypeError"
  },
  {
   "property": "C47",
   "status": "partial",
   "theorems": [
    "Paradigm.Props.C47_plain_partial",
    "Paradigm.Props.C47_words_partial",
    "Paradigm.Props.C47_refuted",
    "Paradigm.Props.C47_modules_refuted"
   ],
   "note": "false as stated: A[b.C] and A[b, C] share an entry, so do equally named bases of different modules"
  },
  {
   "property": "C48",
   "status": "partial",
   "theorems": [
    "Paradigm.Props.C48_constructor_partial",
    "Paradigm.Props.C48_recorded",
    "Paradigm.Props.C48_refuted"
   ],
   "note": "false as stated: fields below version checks are forgotten"
  },
  {
   "property": "C49",
   "status": "proved",
   "theorems": [
    "Paradigm.Props.C49_each_once",
    "Paradigm.Props.C49_shallow_first",
    "Paradigm.Props.C49_ends"
   ],
   "note": "on expression nodes"
  },
  {
   "property": "C50",
   "status": "partial",
   "theorems": [
    "Paradigm.Props.C50_join_split",
    "Paradigm.Props.C50_split_join_partial",
    "Paradigm.Props.C50_to_path",
    "Paradigm.Props.C50_chain",
    "Paradigm.Props.C50_chain_injective",
    "Paradigm.Props.C50_parent",
    "Paradigm.Props.C50_refuted"
   ],
   "note": "false as stated: the empty path comes back as one empty part"
  },
  {
   "property": "C51",
   "status": "partial",
   "theorems": [
    "Paradigm.Props.C51_roundtrip_partial",
    "Paradigm.Props.C51_limits",
    "Paradigm.Props.C51_refuted"
   ],
   "note": "false as stated: CPython rejects texts with more than 200 nested brackets or numbers of more than 4300 digits; proved for all other values (numbers, strings, tuples, lists, sets and dicts), and that exactly these are rejected; the reader of literals is part of the trusted specification"
  },
  {
   "property": "C52",
   "status": "proved",
   "theorems": [
    "Paradigm.Props.C52_cut",
    "Paradigm.Props.C52_full"
   ],
   "note": "that the complete file is loaded holds within the limits of the tokenizer (see C51); the compiled file and concurrent writers are not modelled"
  },
  {
   "property": "C53",
   "status": "partial",
   "theorems": [
    "Paradigm.Props.C53_main_partial",
    "Paradigm.Props.C53_child_partial",
    "Paradigm.Props.C53_settled",
    "Paradigm.Props.C53_refuted"
   ],
   "note": "false as stated: child processes start with empty tables when there is no usable cache; proved for the main process"
  },
  {
   "property": "C54",
   "status": "partial",
   "theorems": [
    "Paradigm.Props.C54_injective_partial",
    "Paradigm.Props.C54_modules",
    "Paradigm.Props.C54_refuted"
   ],
   "note": "false as stated for components with underscores; proved for components without"
  },
  {
   "property": "C55",
   "status": "partial",
   "theorems": [
    "Paradigm.Props.C55_exclusive_partial",
    "Paradigm.Props.C55_shared_lock",
    "Paradigm.Props.C55_never_stuck",
    "Paradigm.Props.C55_refuted"
   ],
   "note": "false as stated: every call makes its own lock, so overlapping calls leave __main__ replaced; proved for calls that do not overlap, and for all interleavings if the lock were shared"
  },
  {
   "property": "C56",
   "status": "partial",
   "theorems": [
    "Paradigm.Props.C56_outcome_partial",
    "Paradigm.Props.C56_blocked_iff",
    "Paradigm.Props.C56_broken",
    "Paradigm.Props.C56_refuted"
   ],
   "note": "false as stated: an unpicklable result, an exit or a kill blocks the caller for ever"
  },
  {
   "property": "C57",
   "status": "proved",
   "theorems": [
    "Paradigm.Props.C57_terminates",
    "Paradigm.Props.C57_sound",
    "Paradigm.Props.C57_named"
   ],
   "note": "attributes are the entries of vars()"
  },
  {
   "property": "C58",
   "status": "proved",
   "theorems": [
    "Paradigm.Props.C58_supported",
    "Paradigm.Props.C58_none_below",
    "Paradigm.Props.C58_platform"
   ],
   "note": ""
  },
  {
   "property": "C59",
   "status": "partial",
   "theorems": [
    "Paradigm.Props.C59_module",
    "Paradigm.Props.C59_stub",
    "Paradigm.Props.C59_stubs_distinct_partial",
    "Paradigm.Props.C59_package",
    "Paradigm.Props.C59_stub_used",
    "Paradigm.Props.C59_package_source",
    "Paradigm.Props.C59_stdlib",
    "Paradigm.Props.C59_refuted",
    "Paradigm.Props.C59_package_refuted"
   ],
   "note": "false as stated: x.py and x.so give one module, and an __init__ with a tagged suffix is not seen as a package; proved for stub files and simple suffixes"
  },
  {
   "property": "C60",
   "status": "proved",
   "theorems": [
    "Paradigm.Props.C60_canonical"
   ],
   "note": ""
  },
  {
   "property": "C61",
   "status": "partial",
   "theorems": [
    "Paradigm.Props.C61_only_not_found_partial",
    "Paradigm.Props.C61_refuted",
    "Paradigm.Props.C61_refuted_legal_import"
   ],
   "note": "false as stated: AssertionError for unresolvable imports, even legal circular ones; proved when imports point at definitions"
  },
  {
   "property": "C62",
   "status": "partial",
   "theorems": [
    "Paradigm.Props.C62_positional_calls_partial",
    "Paradigm.Props.C62_refuted",
    "Paradigm.Props.C62_refuted_static"
   ],
   "note": "false as stated: parameters before '/' are dropped, the first parameter of a static method is required; proved for the other definitions in all roles"
  },
  {
   "property": "C63",
   "status": "proved",
   "theorems": [
    "Paradigm.Props.C63_legal",
    "Paradigm.Props.C63_session"
   ],
   "note": ""
  },
  {
   "property": "C64",
   "status": "partial",
   "theorems": [
    "Paradigm.Props.C64_instance_partial",
    "Paradigm.Props.C64_class_partial",
    "Paradigm.Props.C64_refuted"
   ],
   "note": "false as stated: builtin class methods such as dict.fromkeys keep their first parameter; class methods written in Python are not looked up in the stubs at all"
  },
  {
   "property": "C65",
   "status": "partial",
   "theorems": [
    "Paradigm.Props.C65_terminates_partial",
    "Paradigm.Props.C65_refuted"
   ],
   "note": "false as stated: star-import cycles are looked through forever; proved without such cycles"
  },
  {
   "property": "C66",
   "status": "partial",
   "theorems": [
    "Paradigm.Props.C66_direct_partial",
    "Paradigm.Props.C66_refuted"
   ],
   "note": "false as stated: only two levels of ancestors are registered"
  },
  {
   "property": "C67",
   "status": "partial",
   "theorems": [
    "Paradigm.Props.C67_complete_partial",
    "Paradigm.Props.C67_nothing_else",
    "Paradigm.Props.C67_refuted"
   ],
   "note": "false as stated: an unresolvable name in a module read during the lookup of another name leaves it half read without an error"
  },
  {
   "property": "C68",
   "status": "proved",
   "theorems": [
    "Paradigm.Props.C68_limit_irrelevant"
   ],
   "note": ""
  },
  {
   "property": "C69",
   "status": "partial",
   "theorems": [
    "Paradigm.Props.C66_direct_partial",
    "Paradigm.Props.C69_refuted",
    "Paradigm.Props.C69_witness"
   ],
   "note": "false as stated: the first specialisation changes the stored bases of the generic class"
  },
  {
   "property": "C70",
   "status": "partial",
   "theorems": [
    "Paradigm.Props.C70_fresh_partial",
    "Paradigm.Props.C70_refuted"
   ],
   "note": "false as stated: references are kept by bare name, the last writer wins"
  },
  {
   "property": "C71",
   "status": "proved",
   "theorems": [
    "Paradigm.Props.C71_modules_kept"
   ],
   "note": "also when processing ends with an exception"
  },
  {
   "property": "C72",
   "status": "partial",
   "theorems": [
    "Paradigm.Props.C72_plain_partial",
    "Paradigm.Props.C72_processable_partial",
    "Paradigm.Props.C72_read_partial",
    "Paradigm.Props.C72_refuted",
    "Paradigm.Props.C72_nested_class",
    "Paradigm.Props.C72_list_argument",
    "Paradigm.Props.C72_unknown_argument"
   ],
   "note": "false as stated: nested classes raise KeyError, list arguments TypeError, arguments of inherited bases are looked for in the wrong module; proved for plain bases and for subscripted ones whose members and names are recorded"
  },
  {
   "property": "C73",
   "status": "proved",
   "theorems": [
    "Paradigm.Props.C73_complete"
   ],
   "note": ""
  },
  {
   "property": "C74",
   "status": "partial",
   "theorems": [
    "Paradigm.Props.C74_equal_partial",
    "Paradigm.Props.C74_refuted"
   ],
   "note": "false as stated: sets are written in the order of iteration; proved for values without sets"
  },
  {
   "property": "C75",
   "status": "partial",
   "theorems": [
    "Paradigm.Props.C75_value_partial",
    "Paradigm.Props.C75_lenient_partial",
    "Paradigm.Props.C75_attributes",
    "Paradigm.Props.C75_refuted"
   ],
   "note": "false as stated: subscribing a class that is not generic gives the class; proved where Python gives a value, and exactly for Python with the two fallbacks"
  },
  {
   "property": "C76",
   "status": "partial",
   "theorems": [
    "Paradigm.Props.C76_meaning_partial",
    "Paradigm.Props.C76_whatever_partial",
    "Paradigm.Props.C76_parsed_partial",
    "Paradigm.Props.C76_refuted"
   ],
   "note": "false as stated for aliases that use each other; proved for expressions without circular aliases, whatever was asked before within the recursion limit"
  },
  {
   "property": "C77",
   "status": "partial",
   "theorems": [
    "Paradigm.Props.C77_available_partial",
    "Paradigm.Props.C77_refuted"
   ],
   "note": "false as stated: the placeholder of a failed alias stays in the cache; proved for names that exist at run time"
  },
  {
   "property": "C78",
   "status": "partial",
   "theorems": [
    "Paradigm.Props.C78_functions_partial",
    "Paradigm.Props.C78_refuted"
   ],
   "note": "false as stated for assignments (the first one is cached); proved for functions"
  },
  {
   "property": "C79",
   "status": "partial",
   "theorems": [
    "Paradigm.Props.C79_terminates_partial",
    "Paradigm.Props.C79_refuted"
   ],
   "note": "false as stated for stub classes with themselves as an attribute; proved where no class exists in stubs only"
  },
  {
   "property": "C80",
   "status": "proved",
   "theorems": [
    "Paradigm.Props.C80_postponed"
   ],
   "note": "no lambda in defaults"
  },
  {
   "property": "C81",
   "status": "partial",
   "theorems": [
    "Paradigm.Props.C81_definition_partial",
    "Paradigm.Props.C81_class_partial",
    "Paradigm.Props.C81_refuted",
    "Paradigm.Props.C81_async_ignored"
   ],
   "note": "false as stated: __new__ without annotation returns Any, and async functions are treated as plain ones; proved for definitions, __init__ and the fallback"
  },
  {
   "property": "C82",
   "status": "partial",
   "theorems": [
    "Paradigm.Props.C82_callable_partial",
    "Paradigm.Props.C82_refuted"
   ],
   "note": "false as stated for Concatenate, which gets (*args, **kwargs); proved for lists, ... and parameter specifications"
  },
  {
   "property": "C83",
   "status": "partial",
   "theorems": [
    "Paradigm.Props.C83_alias_partial",
    "Paradigm.Props.C83_refuted",
    "Paradigm.Props.C83_refuted_method"
   ],
   "note": "false as stated for overloaded functions and methods; proved for functions at module level with one definition"
  },
  {
   "property": "C84",
   "status": "partial",
   "theorems": [
    "Paradigm.Props.C84_places",
    "Paradigm.Props.C84_own_places_partial",
    "Paradigm.Props.C84_refuted"
   ],
   "note": "false as stated for objects that are not listed in the index; proved for listed ones in loaded modules"
  },
  {
   "property": "C85",
   "status": "partial",
   "theorems": [
    "Paradigm.Props.C85_next_place_partial",
    "Paradigm.Props.C85_refuted"
   ],
   "note": "false as stated: a first place without definitions ends the search; proved if the earlier places have definitions"
  },
  {
   "property": "C86",
   "status": "partial",
   "theorems": [
    "Paradigm.Props.C86_type_variable_partial",
    "Paradigm.Props.C86_refuted"
   ],
   "note": "false as stated: a type variable with neither raises ValueError; proved with bound or constraints"
  },
  {
   "property": "C87",
   "status": "proved",
   "theorems": [
    "Paradigm.Props.C87_bases"
   ],
   "note": ""
  },
  {
   "property": "C88",
   "status": "partial",
   "theorems": [
    "Paradigm.Props.C88_parameters",
    "Paradigm.Props.C88_known_partial",
    "Paradigm.Props.C88_refuted"
   ],
   "note": "false as stated: variables that a module only passes on are overlooked; proved: what is recorded, and exactness for names whose meaning is known"
  },
  {
   "property": "C89",
   "status": "partial",
   "theorems": [
    "Paradigm.Props.C89_members_partial",
    "Paradigm.Props.C89_refuted",
    "Paradigm.Props.C89_nested_refuted"
   ],
   "note": "false as stated: names used by assigned members become members, and classes with nested classes raise KeyError; proved for classes of functions and annotations"
  },
  {
   "property": "C90",
   "status": "partial",
   "theorems": [
    "Paradigm.Props.C90_once_partial",
    "Paradigm.Props.C90_alias_partial",
    "Paradigm.Props.C90_refuted"
   ],
   "note": "false as stated: a class whose member uses an alias of the class is made twice; proved for all names of the class, and aliases evaluated later"
  },
  {
   "property": "C91",
   "status": "partial",
   "theorems": [
    "Paradigm.Props.C91_roundtrip_partial",
    "Paradigm.Props.C91_error_partial",
    "Paradigm.Props.C91_refuted",
    "Paradigm.Props.C91_nested_refuted"
   ],
   "note": "false as stated: infinite numbers, numbers of more than 4300 digits and more than 200 nested brackets raise errors; proved for all other trees, and that these are the only ones"
  },
  {
   "property": "C92",
   "status": "partial",
   "theorems": [
    "Paradigm.Props.C92_superclasses_partial",
    "Paradigm.Props.C92_means_partial",
    "Paradigm.Props.C92_written_partial",
    "Paradigm.Props.C92_refuted"
   ],
   "note": "false as stated: the bases of a generic class that is specialised before they are processed are rewritten for good; proved for classes without type parameters, and from the stub files (C92_written_partial) for bases that are names of classes of the module, of builtin classes or of what is imported by name, or dotted names of classes of imported modules"
  },
  {
   "property": "C93",
   "status": "partial",
   "theorems": [
    "Paradigm.Props.C93_attributes_partial",
    "Paradigm.Props.C93_refuted"
   ],
   "note": "false as stated: a name with an annotation and no value raises TypeError; proved where the evaluation succeeds"
  },
  {
   "property": "C94",
   "status": "partial",
   "theorems": [
    "Paradigm.Props.C94_reads_partial",
    "Paradigm.Props.C94_refuted"
   ],
   "note": "false as stated: texts lose their quotes, ... becomes Ellipsis and operands of operators their parentheses; proved for annotations without these"
  },
  {
   "property": "C95",
   "status": "partial",
   "theorems": [
    "Paradigm.Props.C95_declared_partial",
    "Paradigm.Props.C95_from_source_partial",
    "Paradigm.Props.C95_session_partial",
    "Paradigm.Props.C95_refuted"
   ],
   "note": "false as stated: keywords that repeat the name of a parameter filled positionally, in the presence of **kwargs; proved for other calls and definitions without '/'"
  },
  {
   "property": "C96",
   "status": "partial",
   "theorems": [
    "Paradigm.Props.C96_accepted_partial",
    "Paradigm.Props.C96_from_source_partial",
    "Paradigm.Props.C96_session_partial",
    "Paradigm.Props.C96_refuted"
   ],
   "note": "false as stated: parameters before '/' are dropped; proved for definitions without '/'"
  },
  {
   "property": "C97",
   "status": "proved",
   "theorems": [
    "Paradigm.Props.C97_named",
    "Paradigm.Props.C97_distinct",
    "Paradigm.Props.C97_fails",
    "Paradigm.Props.C97_without_module",
    "Paradigm.Props.C97_nameless"
   ],
   "note": ""
  },
  {
   "property": "C98",
   "status": "proved",
   "theorems": [
    "Paradigm.Props.C98_own_place",
    "Paradigm.Props.C98_fails",
    "Paradigm.Props.C57_named"
   ],
   "note": ""
  },
  {
   "property": "C99",
   "status": "proved",
   "theorems": [
    "Paradigm.Props.C99_own_stub",
    "Paradigm.Props.C99_own_class"
   ],
   "note": "the evaluation of annotations is a parameter"
  }
 ]
}