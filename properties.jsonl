{"id": "C01", "title": "Plain signatures accept exactly well-formed parameter lists", "statement": "PlainSignature(*parameters, returns=r) succeeds iff the parameters have pairwise distinct names, their kinds never decrease (positional-only, positional-or-keyword, *args, keyword-only, **kwargs), there is at most one *args and one **kwargs, and no required positional parameter comes after an optional positional one; otherwise it raises ValueError and nothing else.", "quantifier": "every finite sequence of constructible parameters and every return annotation", "why_tests_cant": "the accept/reject boundary is over unboundedly long parameter lists; tests only build lists already normalised to be valid", "anchors": ["paradigm/_core/models.py:PlainSignature.__new__"]}
{"id": "C02", "title": "Parameter constructors enforce the kind rules", "statement": "RequiredParameter(...) succeeds iff kind is positional-only, positional-or-keyword or keyword-only; OptionalParameter(...) succeeds iff the kind is a ParameterKind and it is not a variadic with a default; a non-ParameterKind raises TypeError, any other rejection ValueError; has_default is true exactly when a default was given.", "quantifier": "every kind, name, annotation and default value", "why_tests_cant": "ranges over all values, including the library's own 'no default' sentinel", "anchors": ["paradigm/_core/models.py:RequiredParameter.__new__", "paradigm/_core/models.py:OptionalParameter.__new__", "paradigm/_core/models.py:_validate_kind"]}
{"id": "C03", "title": "bind never yields a malformed signature nor an internal error", "statement": "For a constructible plain signature, signature.bind(*args, **kwargs) either raises TypeError or returns a plain signature with the same return annotation that the constructor accepts; it never raises ValueError, KeyError or StopIteration.", "quantifier": "every constructible plain signature, every argument tuple and keyword dictionary", "why_tests_cant": "the reordering done for keyword binding must be legal for every mix of kinds, defaults and keyword sets", "anchors": ["paradigm/_core/models.py:PlainSignature.bind", "paradigm/_core/models.py:_bind_positionals", "paradigm/_core/models.py:_bind_keywords"]}
{"id": "C04", "title": "Binding nothing changes nothing", "statement": "signature.bind() returns a signature identical to the original, for plain and for overloaded signatures.", "quantifier": "every constructible plain or overloaded signature", "why_tests_cant": "tests sample signatures; the claim is for all of them", "anchors": ["paradigm/_core/models.py:PlainSignature.bind", "paradigm/_core/models.py:OverloadedSignature.bind"]}
{"id": "C05", "title": "expects predicts bind", "statement": "signature.expects(*args, **kwargs) is True iff signature.bind(*args, **kwargs) does not raise.", "quantifier": "every constructible signature and every args/kwargs", "why_tests_cant": "agreement of two independently written algorithms over unbounded inputs; the failing corner (**kwargs plus a re-used positional name) is not generated by the tests", "anchors": ["paradigm/_core/models.py:PlainSignature.expects", "paradigm/_core/models.py:PlainSignature.bind"]}
{"id": "C06", "title": "all_set is exactly 'Python would accept this call'", "statement": "signature.all_set(*args, **kwargs) is True iff calling a function with that signature with those arguments passes Python's argument binding (no missing, unexpected or doubly given argument).", "quantifier": "every constructible plain signature and every args/kwargs", "why_tests_cant": "requires comparing with the language's own binding algorithm on every input", "anchors": ["paradigm/_core/models.py:PlainSignature.all_set"]}
{"id": "C07", "title": "A complete argument list is always an acceptable one", "statement": "signature.all_set(*args, **kwargs) implies signature.expects(*args, **kwargs).", "quantifier": "every plain or overloaded signature and every args/kwargs (also ones the constructor would reject)", "why_tests_cant": "tests only check it for the empty argument list", "anchors": ["paradigm/_core/models.py:PlainSignature.all_set", "paradigm/_core/models.py:PlainSignature.expects", "paradigm/_core/models.py:OverloadedSignature"]}
{"id": "C08", "title": "expects means 'can be completed'", "statement": "signature.expects(*args, **kwargs) is True iff there are further positional arguments and further keyword arguments such that all_set holds for the extended call.", "quantifier": "every constructible plain signature, every args/kwargs; existential over extensions", "why_tests_cant": "existential over an infinite set of extensions cannot be tested in the negative direction", "anchors": ["paradigm/_core/models.py:PlainSignature.expects", "paradigm/_core/models.py:PlainSignature.all_set"]}
{"id": "C09", "title": "bind is partial application", "statement": "If signature.bind(*a, **k) returns b, then for all further arguments a call of b with (*r, **rk) is accepted by Python's binding rules iff a call of the original with (*a, *r, **{**k, **rk}) is.", "quantifier": "every constructible plain signature, every bound args/kwargs, every further args/kwargs, including re-binding of the same keyword", "why_tests_cant": "doubly quantified over unbounded argument lists", "anchors": ["paradigm/_core/models.py:PlainSignature.bind", "paradigm/_core/models.py:_bind_positionals", "paradigm/_core/models.py:_bind_keywords"]}
{"id": "C10", "title": "Binding in two steps equals binding in one", "statement": "signature.bind(*a, **k).bind(*r, **rk) and signature.bind(*a, *r, **k, **rk) both fail or return the same signature, for disjoint keyword sets.", "quantifier": "every constructible plain signature, all pairs of argument lists with disjoint keyword sets", "why_tests_cant": "algebraic law over unbounded inputs", "anchors": ["paradigm/_core/models.py:PlainSignature.bind"]}
{"id": "C11", "title": "A bound keyword becomes an optional keyword-only parameter whose default is the bound value", "statement": "After signature.bind(**kwargs) succeeds, every kwarg naming a parameter leaves that parameter optional, keyword-only and with the bound value as its default.", "quantifier": "every constructible plain signature, every accepted args/kwargs and every kwarg", "why_tests_cant": "tests only check that some default is present", "anchors": ["paradigm/_core/models.py:_bind_keywords"]}
{"id": "C12", "title": "bind touches nothing else", "statement": "A successful bind(*args, **kwargs) removes exactly the first len(args) positional parameters, plus *args when a positional parameter is bound by keyword; the remaining parameters keep their order, names and annotations, are never made required, and parameters not bound keep their requiredness and default; only positional-or-keyword parameters at or after the first bound keyword change kind (to keyword-only).", "quantifier": "every constructible plain signature and every accepted args/kwargs", "why_tests_cant": "frame condition over unbounded parameter lists", "anchors": ["paradigm/_core/models.py:_bind_positionals", "paradigm/_core/models.py:_bind_keywords"]}
{"id": "C13", "title": "Acceptance is downward closed", "statement": "If a signature expects some arguments then it expects any prefix of the positional arguments together with any subset of the keyword arguments; the same holds for bind succeeding.", "quantifier": "every signature, all args/kwargs and all their sub-argument lists", "why_tests_cant": "universally quantified over sub-argument lists", "anchors": ["paradigm/_core/models.py:PlainSignature.expects", "paradigm/_core/models.py:OverloadedSignature.expects", "paradigm/_core/models.py:PlainSignature.bind"]}
{"id": "C14", "title": "Keyword order never matters", "statement": "expects, all_set and bind give the same answer for two keyword dictionaries with the same items in a different insertion order.", "quantifier": "every signature, all args and all permutations of all kwargs", "why_tests_cant": "factorially many permutations", "anchors": ["paradigm/_core/models.py:PlainSignature", "paradigm/_core/models.py:OverloadedSignature"]}
{"id": "C15", "title": "Acceptance looks only at the number of positionals and the keyword names", "statement": "expects, all_set and the success of bind do not depend on the argument values.", "quantifier": "every signature and all pairs of argument lists with equal length and equal keyword names", "why_tests_cant": "parametricity over arbitrary Python objects", "anchors": ["paradigm/_core/models.py:PlainSignature", "paradigm/_core/models.py:OverloadedSignature"]}
{"id": "C16", "title": "An overloaded signature accepts what some overload accepts, and binds exactly those", "statement": "OverloadedSignature.bind(*args, **kwargs) raises TypeError iff no overload expects the arguments; otherwise it returns the bindings of exactly the accepting overloads, in declaration order, collapsed to a plain signature when there is one.", "quantifier": "every overloaded signature of any length, every args/kwargs", "why_tests_cant": "unbounded number of overloads and arguments", "anchors": ["paradigm/_core/models.py:OverloadedSignature.bind", "paradigm/_core/models.py:from_signatures"]}
{"id": "C17", "title": "Combining signatures flattens and is associative", "statement": "Combining signatures yields the flat list of their plain members in order; combining in groups gives the same result; the result is overloaded iff there are at least two members, and combining nothing raises ValueError.", "quantifier": "every finite sequence of plain/overloaded signatures and every grouping", "why_tests_cant": "unbounded nesting and grouping", "anchors": ["paradigm/_core/models.py:from_signatures", "paradigm/_core/models.py:flatten_signature", "paradigm/_core/models.py:OverloadedSignature.__new__"]}
{"id": "C18", "title": "Partial application of an overloaded signature", "statement": "If binding an overloaded signature succeeds, a later call is accepted by the result iff the combined call is accepted by the original overloaded signature, under Python's binding rules.", "quantifier": "every overloaded signature, bound and further args/kwargs", "why_tests_cant": "doubly quantified over unbounded argument lists and overload sets", "anchors": ["paradigm/_core/models.py:OverloadedSignature.bind", "paradigm/_core/models.py:OverloadedSignature.all_set"]}
{"id": "C19", "title": "Signature equality is an equivalence relation", "statement": "== on parameters and signatures is reflexive, symmetric and transitive.", "quantifier": "all parameters and signatures over all annotation and default values (nested unions, literals, generics, type variables, lists, tuples)", "why_tests_cant": "annotations nest without bound; symmetry is broken only for rare pairs", "anchors": ["paradigm/_core/annotated.py:are_equal", "paradigm/_core/models.py:RequiredParameter.__eq__", "paradigm/_core/models.py:OptionalParameter.__eq__", "paradigm/_core/models.py:PlainSignature.__eq__", "paradigm/_core/models.py:OverloadedSignature.__eq__"]}
{"id": "C20", "title": "Equal signatures have equal hashes", "statement": "If two hashable parameters or signatures compare equal then their hashes are equal, so they can be used interchangeably as dictionary keys.", "quantifier": "all pairs of hashable parameters/signatures, for every hash function of the runtime", "why_tests_cant": "sampling almost never hits equal-but-not-identical type variables or Literal[1]/Literal[True]", "anchors": ["paradigm/_core/models.py:RequiredParameter.__hash__", "paradigm/_core/models.py:OptionalParameter.__hash__", "paradigm/_core/models.py:PlainSignature.__hash__", "paradigm/_core/models.py:OverloadedSignature.__hash__", "paradigm/_core/annotated.py:are_equal"]}
{"id": "C21", "title": "Pickling round-trips", "statement": "Rebuilding a parameter or signature from its pickling arguments succeeds and gives back the same value.", "quantifier": "every constructible parameter, plain and overloaded signature", "why_tests_cant": "the constructor's validation has to accept its own output for every instance", "anchors": ["paradigm/_core/models.py:RequiredParameter.__getnewargs_ex__", "paradigm/_core/models.py:OptionalParameter.__getnewargs_ex__", "paradigm/_core/models.py:PlainSignature.__getnewargs_ex__", "paradigm/_core/models.py:OverloadedSignature.__getnewargs__"]}
{"id": "C22", "title": "str shows every parameter's kind unambiguously", "statement": "Reading the comma separated parts of str(signature) by Python's rules for '/', '*', '*name' and '**name' recovers each parameter's name and kind, in order.", "quantifier": "every constructible plain signature whose names are identifiers", "why_tests_cant": "placement of the separators must be right for all combinations of kinds", "anchors": ["paradigm/_core/models.py:PlainSignature.__str__", "paradigm/_core/models.py:OptionalParameter.__str__", "paradigm/_core/models.py:RequiredParameter.__str__"]}
{"id": "C23", "title": "repr and str of a signature embed those of its parts", "statement": "repr(signature) contains the repr of each parameter (and of each overload), str(signature) the str of each parameter (and of each overload), in order.", "quantifier": "every signature", "why_tests_cant": "unbounded numbers of parts", "anchors": ["paradigm/_core/models.py:PlainSignature.__repr__", "paradigm/_core/models.py:PlainSignature.__str__", "paradigm/_core/models.py:OverloadedSignature.__repr__", "paradigm/_core/models.py:OverloadedSignature.__str__"]}
{"id": "C24", "title": "The inspect fallback preserves the callable's signature", "statement": "Converting an inspect.Signature yields a signature with the same names, kinds, order, defaults and requiredness, never raises for a signature inspect can produce, and accepts exactly the calls the original accepts.", "quantifier": "every inspect.Signature satisfying inspect's own validity rules", "why_tests_cant": "all mixes of kinds/defaults", "anchors": ["paradigm/_core/signatures.py:_from_raw_signature", "paradigm/_core/signatures.py:_parameter_from_raw"]}
{"id": "C25", "title": "Stub defaults are attached to the right parameters", "statement": "For a stub function definition the d positional defaults belong to the last d positional parameters, in order; keyword-only defaults to their own parameter; a parameter is optional iff it has a default or is variadic, and '...' defaults mean optional without a known default.", "quantifier": "every arguments node that Python's parser can produce without positional-only markers", "why_tests_cant": "alignment over lists of all lengths", "anchors": ["paradigm/_core/signatures.py:_to_positional_parameters", "paradigm/_core/signatures.py:_to_keyword_parameters", "paradigm/_core/signatures.py:_parameter_from_ast_node"]}
{"id": "C26", "title": "Every stub definition yields a legal signature", "statement": "The parameter list built from a stub function definition is accepted by PlainSignature, for functions, methods, class methods and constructors.", "quantifier": "every arguments node that Python's parser can produce, with and without '/', in every position (function, method, classmethod, constructor)", "why_tests_cant": "all argument shapes; the '/' shape is mishandled", "anchors": ["paradigm/_core/signatures.py:_parameters_from", "paradigm/_core/signatures.py:_to_positional_parameters"]}
{"id": "C27", "title": "A stub-derived signature never over-accepts", "statement": "Whatever call the signature built from a stub definition accepts, the defined function accepts too.", "quantifier": "every arguments node without positional-only markers, every args/kwargs", "why_tests_cant": "implication over unbounded calls", "anchors": ["paradigm/_core/signatures.py:_to_positional_parameters", "paradigm/_core/signatures.py:_parameters_from", "paradigm/_core/models.py:PlainSignature.all_set"]}
{"id": "C28", "title": "Signature of a partial is the bound signature of its function", "statement": "signature_from_callable(functools.partial(f, *a, **k)) equals signature_from_callable(f).bind(*a, **k), through any nesting of partials, and nested partials give the same signature as the flattened one.", "quantifier": "every callable with a signature and every nesting of partials", "why_tests_cant": "unbounded nesting", "anchors": ["paradigm/_core/signatures.py:from_callable (functools.partial)"]}
{"id": "C29", "title": "Overloads keep their declaration order and number", "statement": "The signature of a callable declared with n overloads in a stub has its plain members in declaration order, one per declaration; n = 1 gives a plain signature.", "quantifier": "every stub file and every overloaded definition", "why_tests_cant": "unbounded stubs", "anchors": ["paradigm/_core/signatures.py:_from_callable", "paradigm/_core/stubs.py:_StateParser._add_ast_node", "paradigm/_core/models.py:from_signatures"]}
{"id": "C30", "title": "A class signature comes from the constructor Python would run", "statement": "For a class described by stubs the signature is that of the first __init__ (else __new__) found along its ancestors; object's constructor is used only if none defines one.", "quantifier": "every class hierarchy in the stub tables", "why_tests_cant": "all hierarchies; inherited constructors are missed", "anchors": ["paradigm/_core/signatures.py:_to_class_builder_qualified_path", "paradigm/_core/signatures.py:_to_mro"]}
{"id": "C31", "title": "Unresolvable callables fall back, they never leak the internal not-found error", "statement": "signature_from_callable on a function, method or class either returns a signature built from stubs or the one inspect reports; the internal 'signature not found' condition never escapes.", "quantifier": "every state of the stub tables and every callable", "why_tests_cant": "all table states", "anchors": ["paradigm/_core/signatures.py:from_callable", "paradigm/_core/signatures.py:_from_callable", "paradigm/_core/signatures.py:_load_ast_nodes"]}
{"id": "C32", "title": "Name resolution only returns defined objects", "statement": "If resolving an object path in a module succeeds with (module, path) then that module is known and the path is defined in it.", "quantifier": "all stub tables (definitions, references, star imports, superclasses), all modules, parents and paths", "why_tests_cant": "ranges over all table contents, including cyclic ones", "anchors": ["paradigm/_core/scoping.py:resolve_object_path"]}
{"id": "C33", "title": "Name resolution is idempotent", "statement": "Resolving the result of a resolution again, from module level, gives the same result.", "quantifier": "all stub tables, all successful resolutions", "why_tests_cant": "all table contents", "anchors": ["paradigm/_core/scoping.py:resolve_object_path"]}
{"id": "C34", "title": "Local definitions shadow star imports, which shadow explicit references, which shadow builtins", "statement": "A name is looked up in the enclosing class, then the module, then star-imported modules in order, then explicit imports/aliases (longest prefix first), then builtins; the first hit decides.", "quantifier": "all stub tables and names", "why_tests_cant": "precedence must hold for every combination of competing bindings", "anchors": ["paradigm/_core/scoping.py:resolve_object_path"]}
{"id": "C35", "title": "Star-import cycles are harmless", "statement": "When a name is bound only through definitions and star imports, resolution always terminates, finds the name iff some module reachable by star imports defines it, and reports not-found otherwise, however the star imports are cyclic.", "quantifier": "all star-import graphs, including cyclic ones", "why_tests_cant": "all graphs", "anchors": ["paradigm/_core/scoping.py:resolve_object_path"]}
{"id": "C36", "title": "Resolution terminates", "statement": "Resolving any name in any stub tables terminates.", "quantifier": "all stub tables", "why_tests_cant": "termination over all tables cannot be tested; alias cycles diverge", "anchors": ["paradigm/_core/scoping.py:resolve_object_path"]}
{"id": "C37", "title": "Attributes are inherited along the declared bases", "statement": "Resolving Class.attr where the class does not define attr finds it in the first declared base (in order) from which it resolves, and in builtins.object if no base has it.", "quantifier": "all class tables", "why_tests_cant": "all hierarchies", "anchors": ["paradigm/_core/scoping.py:resolve_object_path"]}
{"id": "C38", "title": "The supported-path index keeps exactly the resolvable locations", "statement": "Filtering the index keeps, in order, exactly the locations that resolve in the stub tables, and leaves no empty entries.", "quantifier": "all indices and stub tables", "why_tests_cant": "all tables", "anchors": ["paradigm/_core/modules.py:_to_supported_qualified_paths", "paradigm/_core/scoping.py:contains_object_path"]}
{"id": "C39", "title": "Every stub module is parsed at most once", "statement": "During state parsing each module's source is visited at most once, however modules import each other, and re-visiting leaves the tables unchanged.", "quantifier": "all sets of stub sources with arbitrary (cyclic) imports", "why_tests_cant": "all import graphs and orders", "anchors": ["paradigm/_core/stubs.py:_parse_stub_scope"]}
{"id": "C40", "title": "Everything recorded is defined", "statement": "After parsing, each object path with a recorded syntax node or kind is a defined path of its module.", "quantifier": "all stub sources", "why_tests_cant": "invariant over arbitrarily long and nested sources", "anchors": ["paradigm/_core/stubs.py:_StateParser"]}
{"id": "C41", "title": "Only the taken branch of a version/platform check is recorded", "statement": "For an if/elif/else chain in a stub exactly the definitions of the branch selected by the evaluated conditions are recorded.", "quantifier": "all nested conditionals and condition outcomes", "why_tests_cant": "exponentially many branch combinations", "anchors": ["paradigm/_core/stubs.py:_StateParser.visit_If"]}
{"id": "C42", "title": "Import statements bind the names Python binds", "statement": "import a.b.c makes a, a.b and a.b.c refer to those modules; import a.b as n binds only n; from m import x as y binds y (or x) to x of m.", "quantifier": "all import statements", "why_tests_cant": "all dotted paths and aliases", "anchors": ["paradigm/_core/stubs.py:_StateParser.visit_Import", "paradigm/_core/stubs.py:_StateParser.visit_ImportFrom"]}
{"id": "C43", "title": "A class-level alias belongs to its class", "statement": "An assignment x = y inside a class body makes Class.x resolve to y and binds nothing at module level.", "quantifier": "all stub classes with alias assignments", "why_tests_cant": "needs an all-sources argument; the code records the alias at module level", "anchors": ["paradigm/_core/stubs.py:_StateParser._add_reference", "paradigm/_core/stubs.py:_StateParser.visit_Assign"]}
{"id": "C44", "title": "Relative imports resolve as in Python", "statement": "from ..p import x in a module resolves to the module path that Python's import system computes.", "quantifier": "all module paths, package flags, levels and names", "why_tests_cant": "all depths and levels, including those Python rejects", "anchors": ["paradigm/_core/arboreal/utils.py:to_parent_module_path"]}
{"id": "C45", "title": "Generic parameters are collected in order of first appearance", "statement": "The type arguments collected from a (nested) generic base are its leaves, each exactly once, in left-to-right order.", "quantifier": "all nested subscript expressions", "why_tests_cant": "nested cases of arbitrary depth; the order is wrong for nested arguments", "anchors": ["paradigm/_core/stubs.py:_collect_type_args"]}
{"id": "C46", "title": "Generic specialisation is simultaneous substitution", "statement": "Specialising a class's members replaces exactly the occurrences of its type parameters by the corresponding arguments, simultaneously, and changes nothing else.", "quantifier": "all syntax trees, all parameter/argument tables", "why_tests_cant": "all trees", "anchors": ["paradigm/_core/stubs.py:_SpecializeGeneric"]}
{"id": "C47", "title": "Distinct specialisations are kept apart", "statement": "Two different generic base expressions never share one entry in the specialisations table.", "quantifier": "all pairs of generic base expressions and modules", "why_tests_cant": "collisions are rare pairs", "anchors": ["paradigm/_core/arboreal/conversion.py:to_identifier", "paradigm/_core/stubs.py:_register_base_ast_node"]}
{"id": "C48", "title": "A named tuple class gets the constructor of its fields", "statement": "For a NamedTuple class in a stub the generated constructor takes the annotated fields in order, with the given defaults.", "quantifier": "all NamedTuple classes", "why_tests_cant": "all field lists", "anchors": ["paradigm/_core/stubs.py:_named_tuple_to_constructor_ast_node", "paradigm/_core/stubs.py:_annotations_to_signature"]}
{"id": "C49", "title": "Tree iteration yields each descendant exactly once", "statement": "Iterating the children of a syntax node recursively terminates and yields each proper descendant exactly once, shallower ones first.", "quantifier": "all syntax trees", "why_tests_cant": "all trees", "anchors": ["paradigm/_core/arboreal/utils.py:recursively_iterate_children"]}
{"id": "C50", "title": "Dotted names and paths correspond", "statement": "Splitting a dotted string and joining it again is the identity; joining a path of dot-free parts and splitting it gives the path back; attribute chains map one-to-one to non-empty paths.", "quantifier": "all strings, paths and attribute expressions", "why_tests_cant": "all inputs", "anchors": ["paradigm/_core/catalog.py", "paradigm/_core/arboreal/conversion.py:to_path"]}
{"id": "C51", "title": "Saved cache values are read back unchanged", "statement": "Evaluating the text written for a value (nested dicts, lists, tuples, strings, ints) gives back an equal value.", "quantifier": "all nested cache values", "why_tests_cant": "all nestings", "anchors": ["paradigm/_core/pretty.py:repr_from", "paradigm/_core/caching.py:save"]}
{"id": "C52", "title": "A crash while saving never leaves a cache that is silently used", "statement": "If writing the cache file stops at any point, the next start either gets the complete saved data or rebuilds; it never uses a partial or mixed cache.", "quantifier": "all cache contents and all crash points (every prefix of the written text)", "why_tests_cant": "all crash points of all contents", "anchors": ["paradigm/_core/caching.py:save", "paradigm/_core/caching.py:load", "paradigm/_core/stubs.py", "paradigm/_core/modules.py"]}
{"id": "C53", "title": "A cache written by another version is rebuilt, never used", "statement": "Whatever sequence of library versions ran before, the tables in use after start-up were computed by the running version.", "quantifier": "all histories of runs, versions, crashes and failed saves", "why_tests_cant": "all histories", "anchors": ["paradigm/_core/stubs.py", "paradigm/_core/modules.py", "paradigm/_core/caching.py"]}
{"id": "C54", "title": "Different environments use different cache files", "statement": "The cache file name differs whenever mypy version, platform, implementation or Python version differ.", "quantifier": "all pairs of environments", "why_tests_cant": "all pairs of strings", "anchors": ["paradigm/_core/stubs.py:_CACHE_PATH", "paradigm/_core/modules.py:_CACHE_PATH"]}
{"id": "C55", "title": "Running a function in a child process restores __main__", "statement": "After call_in_process returns or raises, sys.modules['__main__'] is what it was before, also when calls overlap in several threads.", "quantifier": "all outcomes of the child and all interleavings of concurrent calls", "why_tests_cant": "all thread interleavings", "anchors": ["paradigm/_core/execution.py:call_in_process"]}
{"id": "C56", "title": "The child's outcome is the caller's outcome", "statement": "call_in_process returns what the function returned or raises what it raised, and always terminates when the function does.", "quantifier": "all functions and outcomes (result, exception, exit, unpicklable result)", "why_tests_cant": "all child behaviours", "anchors": ["paradigm/_core/execution.py:call_in_process", "paradigm/_core/execution.py:_put_result_in_queue"]}
{"id": "C57", "title": "The object index terminates and is sound", "statement": "Indexing any graph of modules and classes terminates, and each location listed under a qualified path really leads, attribute by attribute, to an object with that qualified path.", "quantifier": "all finite object graphs, including cyclic class nesting", "why_tests_cant": "all graphs", "anchors": ["paradigm/_core/index.py:_index_module_or_type"]}
{"id": "C58", "title": "No unsupported module is ever imported by discovery", "statement": "No supported module path equals or lies below an unsupported one, and every other standard module stays supported.", "quantifier": "all module sets and all lists of unsupported names", "why_tests_cant": "all sets", "anchors": ["paradigm/_core/discovery.py:_recursively_update_modules_paths", "paradigm/_core/discovery.py:supported_stdlib_modules_paths"]}
{"id": "C59", "title": "Source files map to the module Python would import from them", "statement": "A file a/b.py maps to a.b, a/b/__init__.py to a.b, and distinct files map to distinct modules unless they are x.py and x/__init__.py.", "quantifier": "all relative file paths", "why_tests_cant": "all paths", "anchors": ["paradigm/_core/sources.py:_relative_file_path_to_module_path"]}
{"id": "C60", "title": "Qualified paths of a callable are canonical", "statement": "The candidate locations computed for a callable are sorted, free of duplicates and each resolves to itself in the stub tables.", "quantifier": "all callables, indices and stub tables", "why_tests_cant": "all tables", "anchors": ["paradigm/_core/signatures.py:resolve_qualified_paths"]}
{"id": "C61", "title": "Resolution fails only by reporting that the object was not found", "statement": "Resolving an object path at module level, in tables where builtins and all references of known modules are present, either succeeds, raises ObjectNotFound or exhausts the stack; it never raises AssertionError or KeyError.", "quantifier": "all stub tables, modules and object paths", "why_tests_cant": "failing needs an import whose target does not resolve from where it is imported, e.g. through a star-import cycle; no test has such tables", "anchors": ["paradigm/_core/scoping.py:resolve_object_path"]}
{"id": "C62", "title": "A stub-derived signature accepts the positional calls of the function", "statement": "Whatever call the function defined in a stub accepts without passing a positional parameter by keyword, the signature built from its definition accepts.", "quantifier": "every arguments node, with and without '/', every args/kwargs", "why_tests_cant": "implication over unbounded calls; parameters before '/' are dropped, which only shows on stubs using that syntax", "anchors": ["paradigm/_core/signatures.py:_to_positional_parameters", "paradigm/_core/signatures.py:_parameters_from"]}
{"id": "C63", "title": "Only legal signatures are returned", "statement": "Whatever signature_from_callable returns, for any callable and any nesting of partials, could have been built through the public constructors from legal parameters.", "quantifier": "every callable, every state of the stub tables, every outcome of inspect and of annotation evaluation", "why_tests_cant": "unbounded table contents and recursion through aliases, TypeVar bounds and __call__ methods", "anchors": ["paradigm/_core/signatures.py:from_callable", "paradigm/_core/signatures.py:_from_statement_node", "paradigm/_core/signatures.py:_from_expression_node", "paradigm/_core/signatures.py:_from_raw_signature"]}
{"id": "C64", "title": "The signature of a bound method is that of the function without its first argument", "statement": "For a method bound to an instance or, for a class method, to its class, the returned signature accepts a call exactly when the underlying function's signature accepts it with the bound object put in front.", "quantifier": "every method found in the stubs, every call", "why_tests_cant": "all definitions and calls; the class-bound case forgets to bind", "anchors": ["paradigm/_core/signatures.py:from_callable (types.MethodType, types.BuiltinMethodType)"]}
{"id": "C65", "title": "Reading stub files needs only a finite stack", "statement": "For finitely many stub files there is a recursion depth with which the state parser finishes (with tables or an ordinary exception), whatever the files import from each other.", "quantifier": "all finite sets of stub files with arbitrary imports", "why_tests_cant": "all import graphs; a star-import cycle is looked through forever, but only for names nobody defines", "anchors": ["paradigm/_core/stubs.py:_resolve_object_path", "paradigm/_core/stubs.py:_parse_stub_scope"]}
{"id": "C66", "title": "All ancestors of a specialised generic base are registered", "statement": "If a stub class derives from a specialised generic class, the chain of superclasses recorded for the specialisation has the generic class's own bases, and theirs, with the arguments substituted all the way up.", "quantifier": "all generic hierarchies of any depth", "why_tests_cant": "depth is unbounded, only shallow hierarchies occur in test stubs", "anchors": ["paradigm/_core/stubs.py:_register_base_ast_node", "paradigm/_core/stubs.py:_register_generic_specialization"]}
{"id": "C67", "title": "A stub module is recorded completely or the parse fails", "statement": "If the state parser finishes normally, every module that was read has all of its definitions recorded, in source order, and nothing else.", "quantifier": "all sets of stub files, all outcomes of version checks", "why_tests_cant": "needs a file that breaks in the middle while it is read on behalf of another one", "anchors": ["paradigm/_core/stubs.py:_parse_stub_scope", "paradigm/_core/stubs.py:_StateParser._to_qualified_path", "paradigm/_core/stubs.py:_resolve_object_path"]}
{"id": "C68", "title": "The recursion limit never changes an answer", "statement": "If the state parser stays within one recursion limit, then under any higher limit it ends in the same way with the same tables.", "quantifier": "all stub files, all limits", "why_tests_cant": "exceptions caught half-way could make results depend on the depth of the stack", "anchors": ["paradigm/_core/stubs.py:_StateParser", "paradigm/_core/stubs.py:_resolve_object_path", "paradigm/_core/stubs.py:_parse_stub_scope"]}
{"id": "C69", "title": "Specialised base classes do not influence each other", "statement": "For a stub class deriving from G[args], the superclasses recorded for G[args] are those of G with the arguments in the place of the parameters, whatever other specialisations of G the stubs contain.", "quantifier": "all stubs with any number of specialisations of one generic class", "why_tests_cant": "needs two specialisations of a class that itself derives from a subscripted generic", "anchors": ["paradigm/_core/stubs.py:_register_base_ast_node", "paradigm/_core/stubs.py:_SpecializeGeneric"]}
{"id": "C70", "title": "Names in specialised members keep their meaning", "statement": "A name used in a member of a generic class means the same object in the copy of that member made for a specialisation of the class.", "quantifier": "all stubs, all names used by members of generic classes", "why_tests_cant": "needs two modules using the same name for different things in generic classes", "anchors": ["paradigm/_core/stubs.py:_register_generic_specialization"]}
{"id": "C71", "title": "Processing base classes leaves the modules alone", "statement": "Processing the bases of all classes changes neither definitions nor syntax trees, kinds, references or star imports recorded for any stub module; superclasses are only appended. This holds even if it ends with an exception.", "quantifier": "all parser states, all outcomes", "why_tests_cant": "all states; copies of syntax trees are changed in place, so that sharing would be a bug no single test shows", "anchors": ["paradigm/_core/stubs.py:_process_classes_bases", "paradigm/_core/stubs.py:_register_generic_specialization"]}
{"id": "C72", "title": "Resolvable bases never make reading the stubs fail", "statement": "If every base of every stub class is a class or a subscripted generic class that can be resolved, processing the bases raises no exception and records the bases of each class in order.", "quantifier": "all stubs", "why_tests_cant": "one class in any stub can make all signatures unavailable", "anchors": ["paradigm/_core/stubs.py:_process_classes_bases", "paradigm/_core/stubs.py:_register_base_ast_node"]}
{"id": "C73", "title": "The object index misses nothing", "statement": "Every object that can be reached from an importable module, attribute by attribute, without passing through a class twice, is listed with that path under its qualified path, if it has one.", "quantifier": "all finite object graphs, including cyclic class nesting, and all paths", "why_tests_cant": "all graphs and all paths through them", "anchors": ["paradigm/_core/index.py:_index_module_or_type"]}
{"id": "C74", "title": "Equal tables are saved as the same text", "statement": "Two equal values, whatever the order in which their dictionaries were filled, are written to the cache as the same text, so that the cache file is reproducible.", "quantifier": "all pairs of equal cache values", "why_tests_cant": "all orders of insertion at all levels", "anchors": ["paradigm/_core/pretty.py:repr_from", "paradigm/_core/caching.py:save"]}
{"id": "C75", "title": "Annotations in signatures mean what Python says", "statement": "An annotation or default of a stub whose names all exist at run time is, in the signature, the object Python's own evaluation of the expression gives.", "quantifier": "all expressions of the supported kinds, all modules, all meanings of operators and attributes", "why_tests_cant": "all nestings of subscripts, operators, calls and attributes, with any object behind each name", "anchors": ["paradigm/_core/arboreal/evaluation.py:evaluate_expression_node"]}
{"id": "C76", "title": "Annotations do not depend on the order of questions", "statement": "The value of an annotation in a signature is the same whatever signatures were asked for before in the same process.", "quantifier": "all sequences of signature requests", "why_tests_cant": "all histories of a process; the caches of the evaluator are filled as a side effect", "anchors": ["paradigm/_core/arboreal/evaluation.py:evaluate_qualified_path", "paradigm/_core/arboreal/evaluation.py:evaluate_statement_node"]}
{"id": "C77", "title": "A failed annotation fails again", "statement": "If evaluating an annotation raises an exception, asking again in the same process raises the same exception.", "quantifier": "all expressions, all states of the caches", "why_tests_cant": "needs a failure inside an alias, followed by a second question in the same process", "anchors": ["paradigm/_core/arboreal/evaluation.py:evaluate_statement_node"]}
{"id": "C78", "title": "The last definition of a stub object counts", "statement": "A name that is defined several times in a stub module and does not exist at run time has the value of its last definition, as it would have in Python.", "quantifier": "all lists of definitions", "why_tests_cant": "needs repeated definitions of objects that only exist in stubs", "anchors": ["paradigm/_core/arboreal/evaluation.py:evaluate_qualified_path"]}
{"id": "C79", "title": "Evaluating annotations ends", "statement": "Evaluating an annotation ends, even if stub objects refer to themselves or to each other, provided that their names can be resolved.", "quantifier": "all stubs, all expressions", "why_tests_cant": "all cycles of references between stub objects", "anchors": ["paradigm/_core/arboreal/evaluation.py:evaluate_qualified_path", "paradigm/_core/arboreal/evaluation.py:evaluate_statement_node"]}
{"id": "C80", "title": "Postponing annotations changes nothing else", "statement": "When a function that only exists in a stub is made, names, kinds, order and defaults of its parameters and its decorators are kept; only annotations are replaced, each by a string, and none appears or vanishes.", "quantifier": "all function definitions", "why_tests_cant": "all combinations of parameter kinds with and without annotations", "anchors": ["paradigm/_core/arboreal/evaluation.py:_LazyEvaluator", "paradigm/_core/arboreal/evaluation.py:_to_lazy_statement"]}
{"id": "C81", "title": "Return annotations say what is declared", "statement": "A signature built from a stub definition returns what the definition declares (Any if nothing is declared), and the signature of a class returns an instance of the class.", "quantifier": "all definitions, all classes", "why_tests_cant": "all combinations of definitions, roles and constructors", "anchors": ["paradigm/_core/signatures.py:_returns_annotation_from", "paradigm/_core/signatures.py:from_callable"]}
{"id": "C82", "title": "Declared callable types mean what they say", "statement": "A name that a stub declares as Callable[arguments, result] gets a signature that accepts exactly the calls this type allows and returns result.", "quantifier": "all argument specifications, all calls", "why_tests_cant": "all numbers of arguments and all ways to specify them", "anchors": ["paradigm/_core/signatures.py:_from_expression_node"]}
{"id": "C83", "title": "An alias has the signature of its target", "statement": "A name that a stub defines as an alias of a function has the signature of this function.", "quantifier": "all aliases, all functions", "why_tests_cant": "aliases of overloaded functions and of methods are rare", "anchors": ["paradigm/_core/signatures.py:_from_expression_node", "paradigm/_core/signatures.py:_from_statement_node"]}
{"id": "C84", "title": "Signatures come from the object's own definition", "statement": "In a running interpreter the stub definition at some place is used for an object only if the object itself is found at a place that leads there.", "quantifier": "all objects, all interpreters", "why_tests_cant": "needs objects with the name of another one, as wrappers have", "anchors": ["paradigm/_core/signatures.py:resolve_qualified_paths", "paradigm/_core/signatures.py:_value_has_qualified_path"]}
{"id": "C85", "title": "The next place is tried", "statement": "A callable that is found in several places, one of which has definitions that give a signature, gets a signature from the stubs.", "quantifier": "all lists of places", "why_tests_cant": "needs objects that are found in several stub modules", "anchors": ["paradigm/_core/signatures.py:_from_callable", "paradigm/_core/signatures.py:_load_ast_nodes"]}
{"id": "C86", "title": "Type variables stand for their bound or constraints", "statement": "A name declared by a type variable has the signature of its bound, else the signatures of its constraints as overloads, else the signature inspect reports.", "quantifier": "all type variables", "why_tests_cant": "all combinations of bounds and constraints", "anchors": ["paradigm/_core/signatures.py:_from_expression_node"]}
{"id": "C87", "title": "Classes are recorded with their declared bases", "statement": "When a stub module has been read to its end, each of its classes is recorded with the bases of its last definition, in order and complete, except those that name Generic, Protocol or NamedTuple of typing.", "quantifier": "all stub modules, all classes, all import structures", "why_tests_cant": "classes defined several times, below tests and inside of others, whose bases need other modules to be read", "anchors": ["paradigm/_core/stubs.py:_StateParser.visit_ClassDef"]}
{"id": "C88", "title": "Type variables become type parameters", "statement": "A name among the type arguments of the bases of a class becomes a type parameter of the class if and only if it means a type variable; each parameter is recorded once, in the order of first appearance.", "quantifier": "all stub modules, all classes, all ways to import type variables", "why_tests_cant": "needs type variables that come through several modules", "anchors": ["paradigm/_core/stubs.py:_StateParser.visit_ClassDef", "paradigm/_core/stubs.py:_StateParser._is_type_var_object_path"]}
{"id": "C89", "title": "Classes known only from stubs have their declared members", "statement": "The value of a class that only exists in a stub file is a new class with the recorded superclasses whose members are __module__, __annotations__ and the declared names; each function is made from its last definition, and annotations without a value are evaluated and stored.", "quantifier": "all stub tables, all classes, all histories of the caches", "why_tests_cant": "all classes of all stub files in all orders of evaluation", "anchors": ["paradigm/_core/arboreal/evaluation.py:evaluate_qualified_path"]}
{"id": "C90", "title": "A class known only from stubs is one object", "statement": "However often and under whichever names a class that only exists in a stub file is evaluated, the value is the same object.", "quantifier": "all classes, all sequences of questions", "why_tests_cant": "all orders of evaluation, classes that refer to themselves through aliases", "anchors": ["paradigm/_core/arboreal/evaluation.py:evaluate_qualified_path"]}
{"id": "C91", "title": "Stored syntax trees are read back unchanged", "statement": "Reading the text that a syntax tree is stored as gives a tree with the same classes and fields, whichever optional fields are left out and whichever constants occur.", "quantifier": "all trees made of the classes of ast, all texts, bytes and integers in them", "why_tests_cant": "the texts are made of nested calls with optional arguments and escaped texts; limits of the Python tokenizer only show for deep trees", "anchors": ["paradigm/_core/arboreal/conversion.py:to_raw", "paradigm/_core/arboreal/construction.py:from_raw"]}
{"id": "C92", "title": "The superclasses of a class are its declared bases", "statement": "In the tables built from the stubs the superclasses of a class are, in order, what its declared bases mean: for a name the class it resolves to, for a subscripted generic class a copy of that class with the type parameters replaced by the arguments.", "quantifier": "all sets of stub modules, all classes, all orders of reading", "why_tests_cant": "depends on the order in which classes and their generic bases are processed, across modules", "anchors": ["paradigm/_core/stubs.py:_process_classes_bases", "paradigm/_core/stubs.py:_register_base_ast_node"]}
{"id": "C93", "title": "Modules known only from stubs have their declared names", "statement": "The value of a module that cannot be imported is one module object, the same from then on, with an attribute for each name its stub declares: the value of that name, which for a class is the class it is known as from then on and for a function is made from its last definition.", "quantifier": "all stub tables, all modules that cannot be imported, all histories of the caches", "why_tests_cant": "needs modules that exist in stub files only, with all kinds of declarations", "anchors": ["paradigm/_core/arboreal/evaluation.py:evaluate_qualified_path"]}
{"id": "C94", "title": "Postponed annotations keep their meaning", "statement": "The annotations of a function that only exists in a stub file are kept as texts; each such text is an expression of Python, and read as one it is the annotation written in the stub.", "quantifier": "all functions, all annotations made of names, attributes, subscripts, tuples, lists, operators, signs and literals", "why_tests_cant": "nesting of operators, tuples and subscripts is unbounded, and wrong texts only show when annotations are evaluated", "anchors": ["paradigm/_core/arboreal/evaluation.py:_LazyEvaluator", "paradigm/_core/arboreal/conversion.py:to_str"]}
{"id": "C95", "title": "Accepted calls are accepted by a declared overload", "statement": "If the stubs define the function, method or constructor that runs when a callable is called, then every call for which all_set of its signature_from_callable signature holds is accepted by one of these definitions, with the arguments of partials and the instance of a bound method added.", "quantifier": "all stub tables, all functions, builtins, descriptors, instance methods, method wrappers, classes and nested partials of them, all definitions, all calls", "why_tests_cant": "spans lookup, conversion, overloads, binding and acceptance; calls and nestings of partials are unbounded", "anchors": ["paradigm/_core/signatures.py:from_callable", "paradigm/_core/models.py:PlainSignature.all_set", "paradigm/_core/models.py:OverloadedSignature.all_set"]}
{"id": "C96", "title": "Calls of a declared overload are accepted", "statement": "If the stubs define the function, method or constructor that runs when a callable is called, then every call that one of these definitions accepts, and that gives no positional parameter by keyword, satisfies all_set of the signature_from_callable signature.", "quantifier": "all stub tables, all functions, builtins, descriptors, instance methods, method wrappers, classes and nested partials of them, all definitions, all calls", "why_tests_cant": "spans lookup, conversion, overloads, binding and acceptance; calls and nestings of partials are unbounded", "anchors": ["paradigm/_core/signatures.py:from_callable", "paradigm/_core/models.py:PlainSignature.all_set", "paradigm/_core/models.py:OverloadedSignature.all_set"]}
{"id": "C97", "title": "Objects are named by the place of their definition", "statement": "catalog.qualified_path_from of a function, class, method descriptor, builtin function or builtin class method is the pair of the parts of its module's name and of the names of the classes and functions around its definition (with '<locals>' after functions); different places have different paths; the only exception is AssertionError, raised exactly when the module it asks for is not a text (functions without a module aside).", "quantifier": "all module names, all nestings of classes and functions, all values of __module__", "why_tests_cant": "nestings and names are unbounded, and objects with odd __module__ are rare", "anchors": ["paradigm/_core/catalog.py:qualified_path_from", "paradigm/_core/catalog.py:path_from_string"]}
{"id": "C98", "title": "Library objects are indexed at their own place", "statement": "index.from_modules lists every object that is defined in one of the modules, possibly inside of classes, and can still be found there, at its own place; it lists nothing for objects without a name; if it raises AssertionError, then there is an object in one of the modules whose own module is not a text.", "quantifier": "all object graphs with cycles, all lists of modules, all nestings of classes", "why_tests_cant": "object graphs are unbounded and cyclic", "anchors": ["paradigm/_core/index.py:from_modules", "paradigm/_core/catalog.py:qualified_path_from"]}
{"id": "C99", "title": "Library callables get the signature of their own stub", "statement": "If a function, descriptor or builtin is found where it has been defined in a library module, the stub of this module defines it by functions, and other places at which it is found lead there in the stubs or are unknown to them, then its signature_from_callable signature is the one given by these definitions; for a class it is the one given by its own __init__.", "quantifier": "all library object graphs, all stub tables, all places, all definitions, all signatures", "why_tests_cant": "spans the index, its restriction to the stubs, the lookup and the conversion; aliases and re-exports are unbounded", "anchors": ["paradigm/_core/signatures.py:from_callable", "paradigm/_core/index.py:from_modules", "paradigm/_core/modules.py:_to_supported_qualified_paths"]}
{"id": "C100", "title": "Recorded kinds are those of the last definitions", "statement": "After the stubs were read, what a name of a stub module is recorded to be in _stubs (nodes_kinds: a function, a coroutine function, a class, an assignment) is what its last definition in the branches taken makes it, and names without a definition of their own have no kind; this holds for every module that was read to its end, which every module is that is not read before its turn comes; any other module that was asked for was read to its end or its reading was broken off by an exception.", "quantifier": "all sets of stub files, all import graphs, all redefinitions, all orders of modules", "why_tests_cant": "files, import cycles and redefinitions are unbounded", "anchors": ["paradigm/_core/stubs.py:_StateParser", "paradigm/_core/stubs.py:_parse_stub_scope"]}
{"id": "C101", "title": "Library callables get the signature written in the stub source", "statement": "If a function, descriptor or builtin is found where it has been defined in a library module, the source of the module's stub (read to its end) defines it by functions only, and other places at which it is found lead there in the stubs or are unknown to them, then its signature_from_callable signature is the one given by exactly these definitions of the branches taken, in source order; for a class it is the one given by the definitions of __init__ inside of it.", "quantifier": "all sets of stub files, all library object graphs, all places, all definitions, all signatures", "why_tests_cant": "spans the stub parser, the treatment of bases, the index, the lookup and the conversion; sources and object graphs are unbounded", "anchors": ["paradigm/_core/signatures.py:from_callable", "paradigm/_core/stubs.py:_parse_stubs_state", "paradigm/_core/index.py:from_modules"]}
{"id": "C102", "title": "Earlier questions do not change signatures", "statement": "signature_from_callable gives the same answer for a callable whatever callables it was given before in the same process, be it that these got a signature or an exception.", "quantifier": "all stub tables, all indices, all sequences of callables", "why_tests_cant": "sequences are unbounded, and what is left in the caches by failures and by aliases that use each other only shows in rare orders", "anchors": ["paradigm/_core/signatures.py:from_callable", "paradigm/_core/arboreal/evaluation.py:evaluate_qualified_path", "paradigm/_core/arboreal/evaluation.py:evaluate_expression_node"]}
{"id": "C103", "title": "Signatures say what is written in the stubs", "statement": "If a function, descriptor or builtin is found where it has been defined in a library module, the source of the module's stub defines it by functions only (without '/', and with a first parameter if they are methods), other places at which it is found lead there in the stubs or are unknown to them, every annotation and default written there has a meaning (names mean what they mean in the stubs, aliases their definitions, and no alias needs itself), and every name used as a decorator is known, then signature_from_callable succeeds, whatever it was asked before within the recursion limit, and gives for each definition in source order the parameters written with their names, types and defaults, and the return type written; for a class the same holds with the definitions of __init__ inside of it, the first parameter left out and Self returned, and for a class without __init__ with those of its __new__ and the return type written.", "quantifier": "all sets of stub files without chained assignments, all library object graphs, all places, all definitions, all sequences of callables asked about before", "why_tests_cant": "spans the stub parser, the index, the lookup, the conversion, the evaluation of annotations and its caches; sources, object graphs and sequences are unbounded", "anchors": ["paradigm/_core/signatures.py:from_callable", "paradigm/_core/stubs.py:_parse_stubs_state", "paradigm/_core/index.py:from_modules", "paradigm/_core/arboreal/evaluation.py:evaluate_expression_node"]}
{"id": "C104", "title": "Signatures of methods say what is written in the stubs", "statement": "If a method is bound to an instance (a method of a class, a builtin method such as [].append or a method wrapper such as (1).__add__), its function is found where it has been defined inside of a library class, the source of the module's stub defines it there by functions with a first parameter (without '/'), other places at which it is found lead there in the stubs or are unknown to them, every annotation and default written there has a meaning, and every name used as a decorator is known, then signature_from_callable succeeds, whatever it was asked before within the recursion limit, and gives for each definition in source order the parameters written after the first one with their names, kinds, types and defaults, and the return type written.", "quantifier": "all sets of stub files without chained assignments, all library object graphs, all classes, all definitions, all instances, all sequences of callables asked about before", "why_tests_cant": "spans the stub parser, the index, the lookup, the conversion, the evaluation of annotations, its caches and the binding of the instance; sources, object graphs and sequences are unbounded", "anchors": ["paradigm/_core/signatures.py:from_callable", "paradigm/_core/signatures.py:_parameters_from", "paradigm/_core/models.py:PlainSignature.bind", "paradigm/_core/stubs.py:_parse_stubs_state"]}
{"id": "C105", "title": "Definitions that are only in stubs can be executed", "statement": "When the evaluation of an annotation needs a function that exists in stub files only, and all names in its decorators and defaults are those of builtins or of objects that exist at run time, then the function can be evaluated (there is no NameError).", "quantifier": "all stub tables, all interpreters, all function definitions", "why_tests_cant": "needs stub-only functions with every kind of decorator and default; interpreters and tables are unbounded", "anchors": ["paradigm/_core/arboreal/evaluation.py:evaluate_qualified_path", "paradigm/_core/arboreal/evaluation.py:evaluate_statement_node"]}
{"id": "C106", "title": "Every library module is discovered", "statement": "Every module that Python finds in its library directory or in lib-dynload below it, and whose name is neither that of a test nor of a __main__ module, is among the standard modules, and every standard module is a builtin module or has a file in the library; stubs of modules are known exactly if they have a stub file in the directory of stubs.", "quantifier": "all directory trees, all names of modules", "why_tests_cant": "directory trees are unbounded, and links, unreadable directories and extension modules differ between installations", "anchors": ["paradigm/_core/sources.py:stdlib_modules_paths", "paradigm/_core/file_system.py:find_files_paths"]}
{"id": "C107", "title": "Equal signatures describe the same types", "statement": "If two signatures compare equal then they have the same parameters (names, kinds, which of them are optional and which have defaults), and their annotations describe the same types: the same classes and generics with the same arguments, unions and literals up to order, type variables with the same declaration.", "quantifier": "all pairs of signatures", "why_tests_cant": "annotations are trees of unbounded depth and width, compared by ten handlers that call each other", "anchors": ["paradigm/_core/annotated.py:are_equal", "paradigm/_core/models.py:PlainSignature.__eq__", "paradigm/_core/models.py:OverloadedSignature.__eq__"]}
{"id": "C108", "title": "Earlier questions never change which calls a signature accepts", "statement": "Whenever signature_from_callable gives two signatures for the same callable, in one process or in two with the same stub tables, after whatever questions, they have as many overloads, with the same parameters (names, kinds and which of them are optional, in the same order); hence they accept the same arguments, complete or not, and the same arguments can be bound. Annotations and defaults may differ (C102).", "quantifier": "all stub tables, all callables, all sequences of callables asked about before, all arguments", "why_tests_cant": "the caches of the evaluation are shared by all questions, and sequences of questions are unbounded", "anchors": ["paradigm/_core/signatures.py:from_callable", "paradigm/_core/models.py:PlainSignature.all_set", "paradigm/_core/models.py:PlainSignature.expects", "paradigm/_core/models.py:PlainSignature.bind"]}
{"id": "C109", "title": "Signatures accept exactly what definitions, as they are read, accept", "statement": "If the stubs define what runs when a callable is called (by one or more definitions of a function), then the signature given for the callable, whatever was asked before, accepts exactly the calls that one of the definitions accepts once it is changed as follows: parameters before / are dropped, other positional parameters become positional-only, the first parameter is dropped for classes, and it becomes required and positional-only for methods and class methods. For functions and classes of library modules these are the definitions in the source of the module's stub.", "quantifier": "all stub tables and stub sources, all supported callables (for those bound to classes the class counts as an argument that has to be given), all definitions, all arguments, all sequences of callables asked about before", "why_tests_cant": "definitions and calls are unbounded, and the claim is an equivalence: tests can only sample the calls that must be rejected", "anchors": ["paradigm/_core/signatures.py:from_callable", "paradigm/_core/signatures.py:_from_callable", "paradigm/_core/signatures.py:_parameters_from", "paradigm/_core/signatures.py:_to_positional_parameters", "paradigm/_core/models.py:PlainSignature.all_set"]}
{"id": "C110", "title": "Exactly which declared callables get a signature", "statement": "If the stubs define a function, class or method of an instance by definitions that Python's parser accepts, then signature_from_callable gives a signature for it exactly if each of the definitions can be read: no parameter before / has a default, the annotations and defaults of the other parameters and the annotation of the result (unless it is that of __init__ for a class) can be evaluated, the decorators up to the first classmethod name known objects or no objects, the module is known if there is no classmethod, and there is a parameter after / where a first parameter is replaced or dropped. What inspect reports never matters.", "quantifier": "all stub tables, all evaluations, all definitions, all functions, builtins, classes and methods of instances", "why_tests_cant": "the claim is an equivalence over all definitions; it includes every reason for which the conversion can fail", "anchors": ["paradigm/_core/signatures.py:from_callable", "paradigm/_core/signatures.py:_from_statement_node", "paradigm/_core/signatures.py:_parameters_from", "paradigm/_core/signatures.py:_is_classmethod", "paradigm/_core/signatures.py:_returns_annotation_from"]}
{"id": "C111", "title": "Exactly what signatures of callables without stubs say", "statement": "If neither the index of importable objects nor the stubs know the module of a function, builtin, descriptor, class or method of an instance (or it names no module), then signature_from_callable, whatever it was asked before, raises what inspect raises, and otherwise gives a signature exactly if inspect reports at most one *args and one **kwargs; it has the parameters that inspect reports with their names, kinds, annotations (Any if there is none) and defaults, and their result (Self for classes); and Python accepts exactly the calls for which all_set holds and no keyword, in the presence of **kwargs, repeats the name of a parameter filled positionally. functools.partial of such a callable gets a signature exactly if the callable does, its arguments can be completed to a call that Python accepts, and no keyword repeats, in the presence of **kwargs, the name of a parameter filled positionally.", "quantifier": "all runtimes, all callables of unknown modules, all valid inspect signatures, all arguments, all sequences of callables asked about before", "why_tests_cant": "the claim is an equivalence over all parameter lists and calls; tests sample the calls that must be rejected", "anchors": ["paradigm/_core/signatures.py:from_callable", "paradigm/_core/signatures.py:_from_raw_signature", "paradigm/_core/signatures.py:resolve_qualified_paths", "paradigm/_core/models.py:PlainSignature.all_set", "paradigm/_core/models.py:PlainSignature.bind"]}
{"id": "C112", "title": "Exactly which partial objects of declared callables get a signature", "statement": "If the stubs define a function, class or method of an instance by definitions that Python's parser accepts, then signature_from_callable gives a signature for functools.partial of it exactly if each definition can be read (C110), the arguments can be completed to a call that one of the definitions, as they are read (C109), accepts, and for no definition whose calls the arguments can be completed to a keyword repeats, in the presence of **kwargs, the name of a parameter filled positionally.", "quantifier": "all stub tables, all evaluations, all definitions, all functions, builtins, classes and methods of instances, all arguments (nested partial objects are flattened by functools)", "why_tests_cant": "the claim is an equivalence over all definitions and all arguments; tests sample the partial objects that must be rejected", "anchors": ["paradigm/_core/signatures.py:from_callable", "paradigm/_core/models.py:PlainSignature.bind", "paradigm/_core/models.py:OverloadedSignature.bind", "paradigm/_core/models.py:PlainSignature.expects"]}
{"id": "C113", "title": "Overlapping starts never use a mixed cache", "statement": "However the starts of several processes of any versions overlap, each of them reading the cache file piece by piece or taking a file compiled from it earlier, writing it piece by piece and stopping at any point, every main process uses the tables that its own version computes.", "quantifier": "all interleavings of any number of processes, all versions, all tables, all points at which they stop", "why_tests_cant": "interleavings of reads and writes are unbounded and cannot be forced in a test; a mixed cache shows up as wrong signatures only", "anchors": ["paradigm/_core/caching.py:load", "paradigm/_core/caching.py:save", "paradigm/_core/stubs.py", "paradigm/_core/modules.py"]}
{"id": "C114", "title": "Tables do not depend on hash seeds", "statement": "What is read from stub files does not depend on the order in which Python iterates over sets of names: in whatever orders the names of a test or of the members of a specialised class are visited, the tables of definitions, star imports, superclasses, nodes and kinds are equal, and every name refers to the same object.", "quantifier": "all stub files, all orders of all sets, all lists of modules, all recursion limits", "why_tests_cant": "the order of a set of strings changes with PYTHONHASHSEED from run to run; a test sees a few of the orders, and the result is cached on disk", "anchors": ["paradigm/_core/stubs.py:340-360", "paradigm/_core/stubs.py:948-969"]}
{"id": "C115", "title": "Members of generic bases are found with arguments", "statement": "A member that a class does not define itself, but the generic class G of one of its bases G[A, ...] does, and no earlier base has, is found in the stub tables, and its definitions are those in G with the arguments in the place of the type parameters; the signature of a function that has its place there is given by them.", "quantifier": "all stub files, all classes, all generic bases, all members, all signatures", "why_tests_cant": "it depends on the whole chain from the stub files over the specialisation of all bases to the resolution through superclasses; specialisations of different classes share one table, so that whether it holds depends on all the other modules", "anchors": ["paradigm/_core/stubs.py:703-972", "paradigm/_core/scoping.py:resolve_object_path", "paradigm/_core/signatures.py:from_callable"]}
{"id": "C116", "title": "Members are inherited in the method resolution order", "statement": "If the ancestors of a class are known to the stub tables, then resolving a member of the class finds the member of the first class in Python's method resolution order (C3 linearisation) that defines it, and nothing if no ancestor does.", "quantifier": "all class hierarchies, all members, all stub files", "why_tests_cant": "hierarchies are unbounded, and whether the searched order agrees with the one of Python depends on the whole hierarchy and on which classes define the member", "anchors": ["paradigm/_core/scoping.py:resolve_object_path", "paradigm/_core/stubs.py:703-751", "paradigm/_core/signatures.py:_resolve_builder_qualified_path"]}
{"id": "C117", "title": "Undeclared methods have the inherited signature", "statement": "from_callable of a method that is found where it has been defined, but that the stub of its class does not declare, gives the signature written for the method in the first class of Python's method resolution order whose stub declares it.", "quantifier": "all libraries, all class hierarchies, all methods, all signatures", "why_tests_cant": "stubs leave out many methods that classes override; which declaration applies depends on the whole hierarchy, and the chain goes from the index of the library over resolution to the reading of the declaration", "anchors": ["paradigm/_core/signatures.py:from_callable", "paradigm/_core/scoping.py:resolve_object_path", "paradigm/_core/models.py:_to_supported_qualified_paths"]}
{"id": "C118", "title": "Tables do not depend on the order of modules", "statement": "What is read from stub files does not depend on the order in which the modules are visited, which is the order of a set of tuples of strings: in whatever order they are read, the tables say the same of every module, and every class has the same superclasses.", "quantifier": "all stub files, all modules, all orders of modules, all recursion limits", "why_tests_cant": "the order of a set of tuples of strings changes with PYTHONHASHSEED from run to run, hundreds of modules have more orders than can be tried, and the result is cached on disk", "anchors": ["paradigm/_core/sources.py:80", "paradigm/_core/stubs.py:649-700", "paradigm/_core/stubs.py:975-980"]}
{"id": "C119", "title": "Answers do not depend on the order of modules", "statement": "What signature_from_callable answers, whatever it was asked before, does not depend on the order in which the stub modules were read, which is the order of a set of tuples of strings.", "quantifier": "all stub files, all modules, all orders of modules, all runtimes, all sequences of callables", "why_tests_cant": "the order of a set of tuples of strings changes with PYTHONHASHSEED from run to run, and the tables made in the first run are cached on disk; a test sees the tables of one order", "anchors": ["paradigm/_core/sources.py:80", "paradigm/_core/stubs.py:649-751", "paradigm/_core/stubs.py:975-980", "paradigm/_core/signatures.py:from_callable"]}
