#!/usr/bin/env python3
"""Generates /verif/properties.jsonl (the English property list)."""
import json, os
M = "paradigm/_core/models.py"
S = "paradigm/_core/signatures.py"
SC = "paradigm/_core/scoping.py"
ST = "paradigm/_core/stubs.py"
AN = "paradigm/_core/annotated.py"
P = []
def p(title, statement, quantifier, why, *anchors):
    P.append(dict(id="C%02d" % (len(P) + 1), title=title, statement=statement,
                  quantifier=quantifier, why_tests_cant=why, anchors=list(anchors)))

# --- construction -----------------------------------------------------------------
p("Plain signatures accept exactly well-formed parameter lists",
  "PlainSignature(*parameters, returns=r) succeeds iff the parameters have pairwise distinct names, their kinds never decrease (positional-only, positional-or-keyword, *args, keyword-only, **kwargs), there is at most one *args and one **kwargs, and no required positional parameter comes after an optional positional one; otherwise it raises ValueError and nothing else.",
  "every finite sequence of constructible parameters and every return annotation",
  "the accept/reject boundary is over unboundedly long parameter lists; tests only build lists already normalised to be valid",
  M + ":PlainSignature.__new__")
p("Parameter constructors enforce the kind rules",
  "RequiredParameter(...) succeeds iff kind is positional-only, positional-or-keyword or keyword-only; OptionalParameter(...) succeeds iff the kind is a ParameterKind and it is not a variadic with a default; a non-ParameterKind raises TypeError, any other rejection ValueError; has_default is true exactly when a default was given.",
  "every kind, name, annotation and default value",
  "ranges over all values, including the library's own 'no default' sentinel",
  M + ":RequiredParameter.__new__", M + ":OptionalParameter.__new__", M + ":_validate_kind")
# --- calling ----------------------------------------------------------------------
p("bind never yields a malformed signature nor an internal error",
  "For a constructible plain signature, signature.bind(*args, **kwargs) either raises TypeError or returns a plain signature with the same return annotation that the constructor accepts; it never raises ValueError, KeyError or StopIteration.",
  "every constructible plain signature, every argument tuple and keyword dictionary",
  "the reordering done for keyword binding must be legal for every mix of kinds, defaults and keyword sets",
  M + ":PlainSignature.bind", M + ":_bind_positionals", M + ":_bind_keywords")
p("Binding nothing changes nothing",
  "signature.bind() returns a signature identical to the original, for plain and for overloaded signatures.",
  "every constructible plain or overloaded signature",
  "tests sample signatures; the claim is for all of them",
  M + ":PlainSignature.bind", M + ":OverloadedSignature.bind")
p("expects predicts bind",
  "signature.expects(*args, **kwargs) is True iff signature.bind(*args, **kwargs) does not raise.",
  "every constructible signature and every args/kwargs",
  "agreement of two independently written algorithms over unbounded inputs; the failing corner (**kwargs plus a re-used positional name) is not generated by the tests",
  M + ":PlainSignature.expects", M + ":PlainSignature.bind")
p("all_set is exactly 'Python would accept this call'",
  "signature.all_set(*args, **kwargs) is True iff calling a function with that signature with those arguments passes Python's argument binding (no missing, unexpected or doubly given argument).",
  "every constructible plain signature and every args/kwargs",
  "requires comparing with the language's own binding algorithm on every input",
  M + ":PlainSignature.all_set")
p("A complete argument list is always an acceptable one",
  "signature.all_set(*args, **kwargs) implies signature.expects(*args, **kwargs).",
  "every plain or overloaded signature and every args/kwargs (also ones the constructor would reject)",
  "tests only check it for the empty argument list",
  M + ":PlainSignature.all_set", M + ":PlainSignature.expects", M + ":OverloadedSignature")
p("expects means 'can be completed'",
  "signature.expects(*args, **kwargs) is True iff there are further positional arguments and further keyword arguments such that all_set holds for the extended call.",
  "every constructible plain signature, every args/kwargs; existential over extensions",
  "existential over an infinite set of extensions cannot be tested in the negative direction",
  M + ":PlainSignature.expects", M + ":PlainSignature.all_set")
p("bind is partial application",
  "If signature.bind(*a, **k) returns b, then for all further arguments a call of b with (*r, **rk) is accepted by Python's binding rules iff a call of the original with (*a, *r, **{**k, **rk}) is.",
  "every constructible plain signature, every bound args/kwargs, every further args/kwargs, including re-binding of the same keyword",
  "doubly quantified over unbounded argument lists",
  M + ":PlainSignature.bind", M + ":_bind_positionals", M + ":_bind_keywords")
p("Binding in two steps equals binding in one",
  "signature.bind(*a, **k).bind(*r, **rk) and signature.bind(*a, *r, **k, **rk) both fail or return the same signature, for disjoint keyword sets.",
  "every constructible plain signature, all pairs of argument lists with disjoint keyword sets",
  "algebraic law over unbounded inputs",
  M + ":PlainSignature.bind")
p("A bound keyword becomes an optional keyword-only parameter whose default is the bound value",
  "After signature.bind(**kwargs) succeeds, every kwarg naming a parameter leaves that parameter optional, keyword-only and with the bound value as its default.",
  "every constructible plain signature, every accepted args/kwargs and every kwarg",
  "tests only check that some default is present",
  M + ":_bind_keywords")
p("bind touches nothing else",
  "A successful bind(*args, **kwargs) removes exactly the first len(args) positional parameters, plus *args when a positional parameter is bound by keyword; the remaining parameters keep their order, names and annotations, are never made required, and parameters not bound keep their requiredness and default; only positional-or-keyword parameters at or after the first bound keyword change kind (to keyword-only).",
  "every constructible plain signature and every accepted args/kwargs",
  "frame condition over unbounded parameter lists",
  M + ":_bind_positionals", M + ":_bind_keywords")
p("Acceptance is downward closed",
  "If a signature expects some arguments then it expects any prefix of the positional arguments together with any subset of the keyword arguments; the same holds for bind succeeding.",
  "every signature, all args/kwargs and all their sub-argument lists",
  "universally quantified over sub-argument lists",
  M + ":PlainSignature.expects", M + ":OverloadedSignature.expects", M + ":PlainSignature.bind")
p("Keyword order never matters",
  "expects, all_set and bind give the same answer for two keyword dictionaries with the same items in a different insertion order.",
  "every signature, all args and all permutations of all kwargs",
  "factorially many permutations",
  M + ":PlainSignature", M + ":OverloadedSignature")
p("Acceptance looks only at the number of positionals and the keyword names",
  "expects, all_set and the success of bind do not depend on the argument values.",
  "every signature and all pairs of argument lists with equal length and equal keyword names",
  "parametricity over arbitrary Python objects",
  M + ":PlainSignature", M + ":OverloadedSignature")
# --- overloads --------------------------------------------------------------------
p("An overloaded signature accepts what some overload accepts, and binds exactly those",
  "OverloadedSignature.bind(*args, **kwargs) raises TypeError iff no overload expects the arguments; otherwise it returns the bindings of exactly the accepting overloads, in declaration order, collapsed to a plain signature when there is one.",
  "every overloaded signature of any length, every args/kwargs",
  "unbounded number of overloads and arguments",
  M + ":OverloadedSignature.bind", M + ":from_signatures")
p("Combining signatures flattens and is associative",
  "Combining signatures yields the flat list of their plain members in order; combining in groups gives the same result; the result is overloaded iff there are at least two members, and combining nothing raises ValueError.",
  "every finite sequence of plain/overloaded signatures and every grouping",
  "unbounded nesting and grouping",
  M + ":from_signatures", M + ":flatten_signature", M + ":OverloadedSignature.__new__")
p("Partial application of an overloaded signature",
  "If binding an overloaded signature succeeds, a later call is accepted by the result iff the combined call is accepted by the original overloaded signature, under Python's binding rules.",
  "every overloaded signature, bound and further args/kwargs",
  "doubly quantified over unbounded argument lists and overload sets",
  M + ":OverloadedSignature.bind", M + ":OverloadedSignature.all_set")
# --- value semantics --------------------------------------------------------------
p("Signature equality is an equivalence relation",
  "== on parameters and signatures is reflexive, symmetric and transitive.",
  "all parameters and signatures over all annotation and default values (nested unions, literals, generics, type variables, lists, tuples)",
  "annotations nest without bound; symmetry is broken only for rare pairs",
  AN + ":are_equal", M + ":RequiredParameter.__eq__", M + ":OptionalParameter.__eq__", M + ":PlainSignature.__eq__", M + ":OverloadedSignature.__eq__")
p("Equal signatures have equal hashes",
  "If two hashable parameters or signatures compare equal then their hashes are equal, so they can be used interchangeably as dictionary keys.",
  "all pairs of hashable parameters/signatures, for every hash function of the runtime",
  "sampling almost never hits equal-but-not-identical type variables or Literal[1]/Literal[True]",
  M + ":RequiredParameter.__hash__", M + ":OptionalParameter.__hash__", M + ":PlainSignature.__hash__", M + ":OverloadedSignature.__hash__", AN + ":are_equal")
p("Pickling round-trips",
  "Rebuilding a parameter or signature from its pickling arguments succeeds and gives back the same value.",
  "every constructible parameter, plain and overloaded signature",
  "the constructor's validation has to accept its own output for every instance",
  M + ":RequiredParameter.__getnewargs_ex__", M + ":OptionalParameter.__getnewargs_ex__", M + ":PlainSignature.__getnewargs_ex__", M + ":OverloadedSignature.__getnewargs__")
p("str shows every parameter's kind unambiguously",
  "Reading the comma separated parts of str(signature) by Python's rules for '/', '*', '*name' and '**name' recovers each parameter's name and kind, in order.",
  "every constructible plain signature whose names are identifiers",
  "placement of the separators must be right for all combinations of kinds",
  M + ":PlainSignature.__str__", M + ":OptionalParameter.__str__", M + ":RequiredParameter.__str__")
p("repr and str of a signature embed those of its parts",
  "repr(signature) contains the repr of each parameter (and of each overload), str(signature) the str of each parameter (and of each overload), in order.",
  "every signature",
  "unbounded numbers of parts",
  M + ":PlainSignature.__repr__", M + ":PlainSignature.__str__", M + ":OverloadedSignature.__repr__", M + ":OverloadedSignature.__str__")
# --- extraction from callables ----------------------------------------------------
p("The inspect fallback preserves the callable's signature",
  "Converting an inspect.Signature yields a signature with the same names, kinds, order, defaults and requiredness, never raises for a signature inspect can produce, and accepts exactly the calls the original accepts.",
  "every inspect.Signature satisfying inspect's own validity rules",
  "all mixes of kinds/defaults",
  S + ":_from_raw_signature", S + ":_parameter_from_raw")
p("Stub defaults are attached to the right parameters",
  "For a stub function definition the d positional defaults belong to the last d positional parameters, in order; keyword-only defaults to their own parameter; a parameter is optional iff it has a default or is variadic, and '...' defaults mean optional without a known default.",
  "every arguments node that Python's parser can produce without positional-only markers",
  "alignment over lists of all lengths",
  S + ":_to_positional_parameters", S + ":_to_keyword_parameters", S + ":_parameter_from_ast_node")
p("Every stub definition yields a legal signature",
  "The parameter list built from a stub function definition is accepted by PlainSignature, for functions, methods, class methods and constructors.",
  "every arguments node that Python's parser can produce, with and without '/', in every position (function, method, classmethod, constructor)",
  "all argument shapes; the '/' shape is mishandled",
  S + ":_parameters_from", S + ":_to_positional_parameters")
p("A stub-derived signature never over-accepts",
  "Whatever call the signature built from a stub definition accepts, the defined function accepts too.",
  "every arguments node without positional-only markers, every args/kwargs",
  "implication over unbounded calls",
  S + ":_to_positional_parameters", S + ":_parameters_from", M + ":PlainSignature.all_set")
p("Signature of a partial is the bound signature of its function",
  "signature_from_callable(functools.partial(f, *a, **k)) equals signature_from_callable(f).bind(*a, **k), through any nesting of partials, and nested partials give the same signature as the flattened one.",
  "every callable with a signature and every nesting of partials",
  "unbounded nesting",
  S + ":from_callable (functools.partial)")
p("Overloads keep their declaration order and number",
  "The signature of a callable declared with n overloads in a stub has its plain members in declaration order, one per declaration; n = 1 gives a plain signature.",
  "every stub file and every overloaded definition",
  "unbounded stubs",
  S + ":_from_callable", ST + ":_StateParser._add_ast_node", M + ":from_signatures")
p("A class signature comes from the constructor Python would run",
  "For a class described by stubs the signature is that of the first __init__ (else __new__) found along its ancestors; object's constructor is used only if none defines one.",
  "every class hierarchy in the stub tables",
  "all hierarchies; inherited constructors are missed",
  S + ":_to_class_builder_qualified_path", S + ":_to_mro")
p("Unresolvable callables fall back, they never leak the internal not-found error",
  "signature_from_callable on a function, method or class either returns a signature built from stubs or the one inspect reports; the internal 'signature not found' condition never escapes.",
  "every state of the stub tables and every callable",
  "all table states",
  S + ":from_callable", S + ":_from_callable", S + ":_load_ast_nodes")
# --- scoping ----------------------------------------------------------------------
p("Name resolution only returns defined objects",
  "If resolving an object path in a module succeeds with (module, path) then that module is known and the path is defined in it.",
  "all stub tables (definitions, references, star imports, superclasses), all modules, parents and paths",
  "ranges over all table contents, including cyclic ones",
  SC + ":resolve_object_path")
p("Name resolution is idempotent",
  "Resolving the result of a resolution again, from module level, gives the same result.",
  "all stub tables, all successful resolutions",
  "all table contents",
  SC + ":resolve_object_path")
p("Local definitions shadow star imports, which shadow explicit references, which shadow builtins",
  "A name is looked up in the enclosing class, then the module, then star-imported modules in order, then explicit imports/aliases (longest prefix first), then builtins; the first hit decides.",
  "all stub tables and names",
  "precedence must hold for every combination of competing bindings",
  SC + ":resolve_object_path")
p("Star-import cycles are harmless",
  "When a name is bound only through definitions and star imports, resolution always terminates, finds the name iff some module reachable by star imports defines it, and reports not-found otherwise, however the star imports are cyclic.",
  "all star-import graphs, including cyclic ones",
  "all graphs",
  SC + ":resolve_object_path")
p("Resolution terminates",
  "Resolving any name in any stub tables terminates.",
  "all stub tables",
  "termination over all tables cannot be tested; alias cycles diverge",
  SC + ":resolve_object_path")
p("Attributes are inherited along the declared bases",
  "Resolving Class.attr where the class does not define attr finds it in the first declared base (in order) from which it resolves, and in builtins.object if no base has it.",
  "all class tables",
  "all hierarchies",
  SC + ":resolve_object_path")
p("The supported-path index keeps exactly the resolvable locations",
  "Filtering the index keeps, in order, exactly the locations that resolve in the stub tables, and leaves no empty entries.",
  "all indices and stub tables",
  "all tables",
  "paradigm/_core/modules.py:_to_supported_qualified_paths", SC + ":contains_object_path")
# --- stub parsing -----------------------------------------------------------------
p("Every stub module is parsed at most once",
  "During state parsing each module's source is visited at most once, however modules import each other, and re-visiting leaves the tables unchanged.",
  "all sets of stub sources with arbitrary (cyclic) imports",
  "all import graphs and orders",
  ST + ":_parse_stub_scope")
p("Everything recorded is defined",
  "After parsing, each object path with a recorded syntax node or kind is a defined path of its module.",
  "all stub sources",
  "invariant over arbitrarily long and nested sources",
  ST + ":_StateParser")
p("Only the taken branch of a version/platform check is recorded",
  "For an if/elif/else chain in a stub exactly the definitions of the branch selected by the evaluated conditions are recorded.",
  "all nested conditionals and condition outcomes",
  "exponentially many branch combinations",
  ST + ":_StateParser.visit_If")
p("Import statements bind the names Python binds",
  "import a.b.c makes a, a.b and a.b.c refer to those modules; import a.b as n binds only n; from m import x as y binds y (or x) to x of m.",
  "all import statements",
  "all dotted paths and aliases",
  ST + ":_StateParser.visit_Import", ST + ":_StateParser.visit_ImportFrom")
p("A class-level alias belongs to its class",
  "An assignment x = y inside a class body makes Class.x resolve to y and binds nothing at module level.",
  "all stub classes with alias assignments",
  "needs an all-sources argument; the code records the alias at module level",
  ST + ":_StateParser._add_reference", ST + ":_StateParser.visit_Assign")
p("Relative imports resolve as in Python",
  "from ..p import x in a module resolves to the module path that Python's import system computes.",
  "all module paths, package flags, levels and names",
  "all depths and levels, including those Python rejects",
  "paradigm/_core/arboreal/utils.py:to_parent_module_path")
p("Generic parameters are collected in order of first appearance",
  "The type arguments collected from a (nested) generic base are its leaves, each exactly once, in left-to-right order.",
  "all nested subscript expressions",
  "nested cases of arbitrary depth; the order is wrong for nested arguments",
  ST + ":_collect_type_args")
p("Generic specialisation is simultaneous substitution",
  "Specialising a class's members replaces exactly the occurrences of its type parameters by the corresponding arguments, simultaneously, and changes nothing else.",
  "all syntax trees, all parameter/argument tables",
  "all trees",
  ST + ":_SpecializeGeneric")
p("Distinct specialisations are kept apart",
  "Two different generic base expressions never share one entry in the specialisations table.",
  "all pairs of generic base expressions and modules",
  "collisions are rare pairs",
  "paradigm/_core/arboreal/conversion.py:to_identifier", ST + ":_register_base_ast_node")
p("A named tuple class gets the constructor of its fields",
  "For a NamedTuple class in a stub the generated constructor takes the annotated fields in order, with the given defaults.",
  "all NamedTuple classes",
  "all field lists",
  ST + ":_named_tuple_to_constructor_ast_node", ST + ":_annotations_to_signature")
p("Tree iteration yields each descendant exactly once",
  "Iterating the children of a syntax node recursively terminates and yields each proper descendant exactly once, shallower ones first.",
  "all syntax trees",
  "all trees",
  "paradigm/_core/arboreal/utils.py:recursively_iterate_children")
p("Dotted names and paths correspond",
  "Splitting a dotted string and joining it again is the identity; joining a path of dot-free parts and splitting it gives the path back; attribute chains map one-to-one to non-empty paths.",
  "all strings, paths and attribute expressions",
  "all inputs",
  "paradigm/_core/catalog.py", "paradigm/_core/arboreal/conversion.py:to_path")
# --- cache ------------------------------------------------------------------------
p("Saved cache values are read back unchanged",
  "Evaluating the text written for a value (nested dicts, lists, tuples, strings, ints) gives back an equal value.",
  "all nested cache values",
  "all nestings",
  "paradigm/_core/pretty.py:repr_from", "paradigm/_core/caching.py:save")
p("A crash while saving never leaves a cache that is silently used",
  "If writing the cache file stops at any point, the next start either gets the complete saved data or rebuilds; it never uses a partial or mixed cache.",
  "all cache contents and all crash points (every prefix of the written text)",
  "all crash points of all contents",
  "paradigm/_core/caching.py:save", "paradigm/_core/caching.py:load", ST, "paradigm/_core/modules.py")
p("A cache written by another version is rebuilt, never used",
  "Whatever sequence of library versions ran before, the tables in use after start-up were computed by the running version.",
  "all histories of runs, versions, crashes and failed saves",
  "all histories",
  ST, "paradigm/_core/modules.py", "paradigm/_core/caching.py")
p("Different environments use different cache files",
  "The cache file name differs whenever mypy version, platform, implementation or Python version differ.",
  "all pairs of environments",
  "all pairs of strings",
  ST + ":_CACHE_PATH", "paradigm/_core/modules.py:_CACHE_PATH")
p("Running a function in a child process restores __main__",
  "After call_in_process returns or raises, sys.modules['__main__'] is what it was before, also when calls overlap in several threads.",
  "all outcomes of the child and all interleavings of concurrent calls",
  "all thread interleavings",
  "paradigm/_core/execution.py:call_in_process")
p("The child's outcome is the caller's outcome",
  "call_in_process returns what the function returned or raises what it raised, and always terminates when the function does.",
  "all functions and outcomes (result, exception, exit, unpicklable result)",
  "all child behaviours",
  "paradigm/_core/execution.py:call_in_process", "paradigm/_core/execution.py:_put_result_in_queue")
# --- discovery --------------------------------------------------------------------
p("The object index terminates and is sound",
  "Indexing any graph of modules and classes terminates, and each location listed under a qualified path really leads, attribute by attribute, to an object with that qualified path.",
  "all finite object graphs, including cyclic class nesting",
  "all graphs",
  "paradigm/_core/index.py:_index_module_or_type")
p("No unsupported module is ever imported by discovery",
  "No supported module path equals or lies below an unsupported one, and every other standard module stays supported.",
  "all module sets and all lists of unsupported names",
  "all sets",
  "paradigm/_core/discovery.py:_recursively_update_modules_paths", "paradigm/_core/discovery.py:supported_stdlib_modules_paths")
p("Source files map to the module Python would import from them",
  "A file a/b.py maps to a.b, a/b/__init__.py to a.b, and distinct files map to distinct modules unless they are x.py and x/__init__.py.",
  "all relative file paths",
  "all paths",
  "paradigm/_core/sources.py:_relative_file_path_to_module_path")
p("Qualified paths of a callable are canonical",
  "The candidate locations computed for a callable are sorted, free of duplicates and each resolves to itself in the stub tables.",
  "all callables, indices and stub tables",
  "all tables",
  S + ":resolve_qualified_paths")
p("Resolution fails only by reporting that the object was not found",
  "Resolving an object path at module level, in tables where builtins and all references of known modules are present, either succeeds, raises ObjectNotFound or exhausts the stack; it never raises AssertionError or KeyError.",
  "all stub tables, modules and object paths",
  "failing needs an import whose target does not resolve from where it is imported, e.g. through a star-import cycle; no test has such tables",
  SC + ":resolve_object_path")
p("A stub-derived signature accepts the positional calls of the function",
  "Whatever call the function defined in a stub accepts without passing a positional parameter by keyword, the signature built from its definition accepts.",
  "every arguments node, with and without '/', every args/kwargs",
  "implication over unbounded calls; parameters before '/' are dropped, which only shows on stubs using that syntax",
  S + ":_to_positional_parameters", S + ":_parameters_from")
p("Only legal signatures are returned",
  "Whatever signature_from_callable returns, for any callable and any nesting of partials, could have been built through the public constructors from legal parameters.",
  "every callable, every state of the stub tables, every outcome of inspect and of annotation evaluation",
  "unbounded table contents and recursion through aliases, TypeVar bounds and __call__ methods",
  S + ":from_callable", S + ":_from_statement_node", S + ":_from_expression_node", S + ":_from_raw_signature")
p("The signature of a bound method is that of the function without its first argument",
  "For a method bound to an instance or, for a class method, to its class, the returned signature accepts a call exactly when the underlying function's signature accepts it with the bound object put in front.",
  "every method found in the stubs, every call",
  "all definitions and calls; the class-bound case forgets to bind",
  S + ":from_callable (types.MethodType, types.BuiltinMethodType)")

p("Reading stub files needs only a finite stack",
  "For finitely many stub files there is a recursion depth with which the state parser finishes (with tables or an ordinary exception), whatever the files import from each other.",
  "all finite sets of stub files with arbitrary imports",
  "all import graphs; a star-import cycle is looked through forever, but only for names nobody defines",
  ST + ":_resolve_object_path", ST + ":_parse_stub_scope")
p("All ancestors of a specialised generic base are registered",
  "If a stub class derives from a specialised generic class, the chain of superclasses recorded for the specialisation has the generic class's own bases, and theirs, with the arguments substituted all the way up.",
  "all generic hierarchies of any depth",
  "depth is unbounded, only shallow hierarchies occur in test stubs",
  ST + ":_register_base_ast_node", ST + ":_register_generic_specialization")
p("A stub module is recorded completely or the parse fails",
  "If the state parser finishes normally, every module that was read has all of its definitions recorded, in source order, and nothing else.",
  "all sets of stub files, all outcomes of version checks",
  "needs a file that breaks in the middle while it is read on behalf of another one",
  ST + ":_parse_stub_scope", ST + ":_StateParser._to_qualified_path", ST + ":_resolve_object_path")
p("The recursion limit never changes an answer",
  "If the state parser stays within one recursion limit, then under any higher limit it ends in the same way with the same tables.",
  "all stub files, all limits",
  "exceptions caught half-way could make results depend on the depth of the stack",
  ST + ":_StateParser", ST + ":_resolve_object_path", ST + ":_parse_stub_scope")
p("Specialised base classes do not influence each other",
  "For a stub class deriving from G[args], the superclasses recorded for G[args] are those of G with the arguments in the place of the parameters, whatever other specialisations of G the stubs contain.",
  "all stubs with any number of specialisations of one generic class",
  "needs two specialisations of a class that itself derives from a subscripted generic",
  ST + ":_register_base_ast_node", ST + ":_SpecializeGeneric")
p("Names in specialised members keep their meaning",
  "A name used in a member of a generic class means the same object in the copy of that member made for a specialisation of the class.",
  "all stubs, all names used by members of generic classes",
  "needs two modules using the same name for different things in generic classes",
  ST + ":_register_generic_specialization")
p("Processing base classes leaves the modules alone",
  "Processing the bases of all classes changes neither definitions nor syntax trees, kinds, references or star imports recorded for any stub module; superclasses are only appended. This holds even if it ends with an exception.",
  "all parser states, all outcomes",
  "all states; copies of syntax trees are changed in place, so that sharing would be a bug no single test shows",
  ST + ":_process_classes_bases", ST + ":_register_generic_specialization")
p("Resolvable bases never make reading the stubs fail",
  "If every base of every stub class is a class or a subscripted generic class that can be resolved, processing the bases raises no exception and records the bases of each class in order.",
  "all stubs",
  "one class in any stub can make all signatures unavailable",
  ST + ":_process_classes_bases", ST + ":_register_base_ast_node")

p("The object index misses nothing",
  "Every object that can be reached from an importable module, attribute by attribute, without passing through a class twice, is listed with that path under its qualified path, if it has one.",
  "all finite object graphs, including cyclic class nesting, and all paths",
  "all graphs and all paths through them",
  "paradigm/_core/index.py:_index_module_or_type")

p("Equal tables are saved as the same text",
  "Two equal values, whatever the order in which their dictionaries were filled, are written to the cache as the same text, so that the cache file is reproducible.",
  "all pairs of equal cache values",
  "all orders of insertion at all levels",
  "paradigm/_core/pretty.py:repr_from", "paradigm/_core/caching.py:save")

EV = "paradigm/_core/arboreal/evaluation.py"
p("Annotations in signatures mean what Python says",
  "An annotation or default of a stub whose names all exist at run time is, in the signature, the object Python's own evaluation of the expression gives.",
  "all expressions of the supported kinds, all modules, all meanings of operators and attributes",
  "all nestings of subscripts, operators, calls and attributes, with any object behind each name",
  EV + ":evaluate_expression_node")
p("Annotations do not depend on the order of questions",
  "The value of an annotation in a signature is the same whatever signatures were asked for before in the same process.",
  "all sequences of signature requests",
  "all histories of a process; the caches of the evaluator are filled as a side effect",
  EV + ":evaluate_qualified_path", EV + ":evaluate_statement_node")
p("A failed annotation fails again",
  "If evaluating an annotation raises an exception, asking again in the same process raises the same exception.",
  "all expressions, all states of the caches",
  "needs a failure inside an alias, followed by a second question in the same process",
  EV + ":evaluate_statement_node")
p("The last definition of a stub object counts",
  "A name that is defined several times in a stub module and does not exist at run time has the value of its last definition, as it would have in Python.",
  "all lists of definitions",
  "needs repeated definitions of objects that only exist in stubs",
  EV + ":evaluate_qualified_path")
p("Evaluating annotations ends",
  "Evaluating an annotation ends, even if stub objects refer to themselves or to each other, provided that their names can be resolved.",
  "all stubs, all expressions",
  "all cycles of references between stub objects",
  EV + ":evaluate_qualified_path", EV + ":evaluate_statement_node")
p("Postponing annotations changes nothing else",
  "When a function that only exists in a stub is made, names, kinds, order and defaults of its parameters and its decorators are kept; only annotations are replaced, each by a string, and none appears or vanishes.",
  "all function definitions",
  "all combinations of parameter kinds with and without annotations",
  EV + ":_LazyEvaluator", EV + ":_to_lazy_statement")
p("Return annotations say what is declared",
  "A signature built from a stub definition returns what the definition declares (Any if nothing is declared), and the signature of a class returns an instance of the class.",
  "all definitions, all classes",
  "all combinations of definitions, roles and constructors",
  S + ":_returns_annotation_from", S + ":from_callable")
p("Declared callable types mean what they say",
  "A name that a stub declares as Callable[arguments, result] gets a signature that accepts exactly the calls this type allows and returns result.",
  "all argument specifications, all calls",
  "all numbers of arguments and all ways to specify them",
  S + ":_from_expression_node")
p("An alias has the signature of its target",
  "A name that a stub defines as an alias of a function has the signature of this function.",
  "all aliases, all functions",
  "aliases of overloaded functions and of methods are rare",
  S + ":_from_expression_node", S + ":_from_statement_node")
p("Signatures come from the object's own definition",
  "In a running interpreter the stub definition at some place is used for an object only if the object itself is found at a place that leads there.",
  "all objects, all interpreters",
  "needs objects with the name of another one, as wrappers have",
  S + ":resolve_qualified_paths", S + ":_value_has_qualified_path")
p("The next place is tried",
  "A callable that is found in several places, one of which has definitions that give a signature, gets a signature from the stubs.",
  "all lists of places",
  "needs objects that are found in several stub modules",
  S + ":_from_callable", S + ":_load_ast_nodes")
p("Type variables stand for their bound or constraints",
  "A name declared by a type variable has the signature of its bound, else the signatures of its constraints as overloads, else the signature inspect reports.",
  "all type variables",
  "all combinations of bounds and constraints",
  S + ":_from_expression_node")
p("Classes are recorded with their declared bases",
  "When a stub module has been read to its end, each of its classes is recorded with the bases of its last definition, in order and complete, except those that name Generic, Protocol or NamedTuple of typing.",
  "all stub modules, all classes, all import structures",
  "classes defined several times, below tests and inside of others, whose bases need other modules to be read",
  ST + ":_StateParser.visit_ClassDef")
p("Type variables become type parameters",
  "A name among the type arguments of the bases of a class becomes a type parameter of the class if and only if it means a type variable; each parameter is recorded once, in the order of first appearance.",
  "all stub modules, all classes, all ways to import type variables",
  "needs type variables that come through several modules",
  ST + ":_StateParser.visit_ClassDef", ST + ":_StateParser._is_type_var_object_path")
p("Classes known only from stubs have their declared members",
  "The value of a class that only exists in a stub file is a new class with the recorded superclasses whose members are __module__, __annotations__ and the declared names; each function is made from its last definition, and annotations without a value are evaluated and stored.",
  "all stub tables, all classes, all histories of the caches",
  "all classes of all stub files in all orders of evaluation",
  EV + ":evaluate_qualified_path")
p("A class known only from stubs is one object",
  "However often and under whichever names a class that only exists in a stub file is evaluated, the value is the same object.",
  "all classes, all sequences of questions",
  "all orders of evaluation, classes that refer to themselves through aliases",
  EV + ":evaluate_qualified_path")

p("Stored syntax trees are read back unchanged",
  "Reading the text that a syntax tree is stored as gives a tree with the same classes and fields, whichever optional fields are left out and whichever constants occur.",
  "all trees made of the classes of ast, all texts, bytes and integers in them",
  "the texts are made of nested calls with optional arguments and escaped texts; limits of the Python tokenizer only show for deep trees",
  "paradigm/_core/arboreal/conversion.py:to_raw", "paradigm/_core/arboreal/construction.py:from_raw")

p("The superclasses of a class are its declared bases",
  "In the tables built from the stubs the superclasses of a class are, in order, what its declared bases mean: for a name the class it resolves to, for a subscripted generic class a copy of that class with the type parameters replaced by the arguments.",
  "all sets of stub modules, all classes, all orders of reading",
  "depends on the order in which classes and their generic bases are processed, across modules",
  ST + ":_process_classes_bases", ST + ":_register_base_ast_node")

p("Modules known only from stubs have their declared names",
  "The value of a module that cannot be imported is one module object, the same from then on, with an attribute for each name its stub declares: the value of that name, which for a class is the class it is known as from then on and for a function is made from its last definition.",
  "all stub tables, all modules that cannot be imported, all histories of the caches",
  "needs modules that exist in stub files only, with all kinds of declarations",
  EV + ":evaluate_qualified_path")

p("Postponed annotations keep their meaning",
  "The annotations of a function that only exists in a stub file are kept as texts; each such text is an expression of Python, and read as one it is the annotation written in the stub.",
  "all functions, all annotations made of names, attributes, subscripts, tuples, lists, operators, signs and literals",
  "nesting of operators, tuples and subscripts is unbounded, and wrong texts only show when annotations are evaluated",
  EV + ":_LazyEvaluator", "paradigm/_core/arboreal/conversion.py:to_str")

p("Accepted calls are accepted by a declared overload",
  "If the stubs define the function, method or constructor that runs when a callable is called, then every call for which all_set of its signature_from_callable signature holds is accepted by one of these definitions, with the arguments of partials and the instance of a bound method added.",
  "all stub tables, all functions, builtins, descriptors, instance methods, method wrappers, classes and nested partials of them, all definitions, all calls",
  "spans lookup, conversion, overloads, binding and acceptance; calls and nestings of partials are unbounded",
  S + ":from_callable", M + ":PlainSignature.all_set", M + ":OverloadedSignature.all_set")

p("Calls of a declared overload are accepted",
  "If the stubs define the function, method or constructor that runs when a callable is called, then every call that one of these definitions accepts, and that gives no positional parameter by keyword, satisfies all_set of the signature_from_callable signature.",
  "all stub tables, all functions, builtins, descriptors, instance methods, method wrappers, classes and nested partials of them, all definitions, all calls",
  "spans lookup, conversion, overloads, binding and acceptance; calls and nestings of partials are unbounded",
  S + ":from_callable", M + ":PlainSignature.all_set", M + ":OverloadedSignature.all_set")

p("Objects are named by the place of their definition",
  "catalog.qualified_path_from of a function, class, method descriptor, builtin function or builtin class method is the pair of the parts of its module's name and of the names of the classes and functions around its definition (with '<locals>' after functions); different places have different paths; the only exception is AssertionError, raised exactly when the module it asks for is not a text (functions without a module aside).",
  "all module names, all nestings of classes and functions, all values of __module__",
  "nestings and names are unbounded, and objects with odd __module__ are rare",
  "paradigm/_core/catalog.py:qualified_path_from", "paradigm/_core/catalog.py:path_from_string")

p("Library objects are indexed at their own place",
  "index.from_modules lists every object that is defined in one of the modules, possibly inside of classes, and can still be found there, at its own place; it lists nothing for objects without a name; if it raises AssertionError, then there is an object in one of the modules whose own module is not a text.",
  "all object graphs with cycles, all lists of modules, all nestings of classes",
  "object graphs are unbounded and cyclic",
  "paradigm/_core/index.py:from_modules", "paradigm/_core/catalog.py:qualified_path_from")

p("Library callables get the signature of their own stub",
  "If a function, descriptor or builtin is found where it has been defined in a library module, the stub of this module defines it by functions, and other places at which it is found lead there in the stubs or are unknown to them, then its signature_from_callable signature is the one given by these definitions; for a class it is the one given by its own __init__.",
  "all library object graphs, all stub tables, all places, all definitions, all signatures",
  "spans the index, its restriction to the stubs, the lookup and the conversion; aliases and re-exports are unbounded",
  S + ":from_callable", "paradigm/_core/index.py:from_modules", "paradigm/_core/modules.py:_to_supported_qualified_paths")

p("Recorded kinds are those of the last definitions",
  "After the stubs were read, what a name of a stub module is recorded to be in _stubs (nodes_kinds: a function, a coroutine function, a class, an assignment) is what its last definition in the branches taken makes it, and names without a definition of their own have no kind; this holds for every module that was read to its end, which every module is that is not read before its turn comes; any other module that was asked for was read to its end or its reading was broken off by an exception.",
  "all sets of stub files, all import graphs, all redefinitions, all orders of modules",
  "files, import cycles and redefinitions are unbounded",
  ST + ":_StateParser", ST + ":_parse_stub_scope")

p("Library callables get the signature written in the stub source",
  "If a function, descriptor or builtin is found where it has been defined in a library module, the source of the module's stub (read to its end) defines it by functions only, and other places at which it is found lead there in the stubs or are unknown to them, then its signature_from_callable signature is the one given by exactly these definitions of the branches taken, in source order; for a class it is the one given by the definitions of __init__ inside of it.",
  "all sets of stub files, all library object graphs, all places, all definitions, all signatures",
  "spans the stub parser, the treatment of bases, the index, the lookup and the conversion; sources and object graphs are unbounded",
  S + ":from_callable", ST + ":_parse_stubs_state", "paradigm/_core/index.py:from_modules")

p("Earlier questions do not change signatures",
  "signature_from_callable gives the same answer for a callable whatever callables it was given before in the same process, be it that these got a signature or an exception.",
  "all stub tables, all indices, all sequences of callables",
  "sequences are unbounded, and what is left in the caches by failures and by aliases that use each other only shows in rare orders",
  S + ":from_callable", EV + ":evaluate_qualified_path", EV + ":evaluate_expression_node")

p("Signatures say what is written in the stubs",
  "If a function, descriptor or builtin is found where it has been defined in a library module, the source of the module's stub defines it by functions only (without '/', and with a first parameter if they are methods), other places at which it is found lead there in the stubs or are unknown to them, every annotation and default written there has a meaning (names mean what they mean in the stubs, aliases their definitions, and no alias needs itself), and every name used as a decorator is known, then signature_from_callable succeeds, whatever it was asked before within the recursion limit, and gives for each definition in source order the parameters written with their names, types and defaults, and the return type written; for a class the same holds with the definitions of __init__ inside of it, the first parameter left out and Self returned, and for a class without __init__ with those of its __new__ and the return type written.",
  "all sets of stub files without chained assignments, all library object graphs, all places, all definitions, all sequences of callables asked about before",
  "spans the stub parser, the index, the lookup, the conversion, the evaluation of annotations and its caches; sources, object graphs and sequences are unbounded",
  S + ":from_callable", ST + ":_parse_stubs_state", "paradigm/_core/index.py:from_modules", EV + ":evaluate_expression_node")

p("Signatures of methods say what is written in the stubs",
  "If a method is bound to an instance (a method of a class, a builtin method such as [].append or a method wrapper such as (1).__add__), its function is found where it has been defined inside of a library class, the source of the module's stub defines it there by functions with a first parameter (without '/'), other places at which it is found lead there in the stubs or are unknown to them, every annotation and default written there has a meaning, and every name used as a decorator is known, then signature_from_callable succeeds, whatever it was asked before within the recursion limit, and gives for each definition in source order the parameters written after the first one with their names, kinds, types and defaults, and the return type written.",
  "all sets of stub files without chained assignments, all library object graphs, all classes, all definitions, all instances, all sequences of callables asked about before",
  "spans the stub parser, the index, the lookup, the conversion, the evaluation of annotations, its caches and the binding of the instance; sources, object graphs and sequences are unbounded",
  S + ":from_callable", S + ":_parameters_from", M + ":PlainSignature.bind", ST + ":_parse_stubs_state")

p("Definitions that are only in stubs can be executed",
  "When the evaluation of an annotation needs a function that exists in stub files only, and all names in its decorators and defaults are those of builtins or of objects that exist at run time, then the function can be evaluated (there is no NameError).",
  "all stub tables, all interpreters, all function definitions",
  "needs stub-only functions with every kind of decorator and default; interpreters and tables are unbounded",
  EV + ":evaluate_qualified_path", EV + ":evaluate_statement_node")

p("Every library module is discovered",
  "Every module that Python finds in its library directory or in lib-dynload below it, and whose name is neither that of a test nor of a __main__ module, is among the standard modules, and every standard module is a builtin module or has a file in the library; stubs of modules are known exactly if they have a stub file in the directory of stubs.",
  "all directory trees, all names of modules",
  "directory trees are unbounded, and links, unreadable directories and extension modules differ between installations",
  "paradigm/_core/sources.py:stdlib_modules_paths", "paradigm/_core/file_system.py:find_files_paths")
p("Equal signatures describe the same types",
  "If two signatures compare equal then they have the same parameters (names, kinds, which of them are optional and which have defaults), and their annotations describe the same types: the same classes and generics with the same arguments, unions and literals up to order, type variables with the same declaration.",
  "all pairs of signatures",
  "annotations are trees of unbounded depth and width, compared by ten handlers that call each other",
  "paradigm/_core/annotated.py:are_equal", M + ":PlainSignature.__eq__", M + ":OverloadedSignature.__eq__")
p("Earlier questions never change which calls a signature accepts",
  "Whenever signature_from_callable gives two signatures for the same callable, in one process or in two with the same stub tables, after whatever questions, they have as many overloads, with the same parameters (names, kinds and which of them are optional, in the same order); hence they accept the same arguments, complete or not, and the same arguments can be bound. Annotations and defaults may differ (C102).",
  "all stub tables, all callables, all sequences of callables asked about before, all arguments",
  "the caches of the evaluation are shared by all questions, and sequences of questions are unbounded",
  S + ":from_callable", M + ":PlainSignature.all_set", M + ":PlainSignature.expects", M + ":PlainSignature.bind")

p("Signatures accept exactly what definitions, as they are read, accept",
  "If the stubs define what runs when a callable is called (by one or more definitions of a function), then the signature given for the callable, whatever was asked before, accepts exactly the calls that one of the definitions accepts once it is changed as follows: parameters before / are dropped, other positional parameters become positional-only, the first parameter is dropped for classes, and it becomes required and positional-only for methods and class methods. For functions and classes of library modules these are the definitions in the source of the module's stub.",
  "all stub tables and stub sources, all supported callables (for those bound to classes the class counts as an argument that has to be given), all definitions, all arguments, all sequences of callables asked about before",
  "definitions and calls are unbounded, and the claim is an equivalence: tests can only sample the calls that must be rejected",
  S + ":from_callable", S + ":_from_callable", S + ":_parameters_from", S + ":_to_positional_parameters", M + ":PlainSignature.all_set")

p("Exactly which declared callables get a signature",
  "If the stubs define a function, class or method of an instance by definitions that Python's parser accepts, then signature_from_callable gives a signature for it exactly if each of the definitions can be read: no parameter before / has a default, the annotations and defaults of the other parameters and the annotation of the result (unless it is that of __init__ for a class) can be evaluated, the decorators up to the first classmethod name known objects or no objects, the module is known if there is no classmethod, and there is a parameter after / where a first parameter is replaced or dropped. What inspect reports never matters.",
  "all stub tables, all evaluations, all definitions, all functions, builtins, classes and methods of instances",
  "the claim is an equivalence over all definitions; it includes every reason for which the conversion can fail",
  S + ":from_callable", S + ":_from_statement_node", S + ":_parameters_from", S + ":_is_classmethod", S + ":_returns_annotation_from")

p("Exactly what signatures of callables without stubs say",
  "If neither the index of importable objects nor the stubs know the module of a function, builtin, descriptor, class or method of an instance (or it names no module), then signature_from_callable, whatever it was asked before, raises what inspect raises, and otherwise gives a signature exactly if inspect reports at most one *args and one **kwargs; it has the parameters that inspect reports with their names, kinds, annotations (Any if there is none) and defaults, and their result (Self for classes); and Python accepts exactly the calls for which all_set holds and no keyword, in the presence of **kwargs, repeats the name of a parameter filled positionally. functools.partial of such a callable gets a signature exactly if the callable does, its arguments can be completed to a call that Python accepts, and no keyword repeats, in the presence of **kwargs, the name of a parameter filled positionally.",
  "all runtimes, all callables of unknown modules, all valid inspect signatures, all arguments, all sequences of callables asked about before",
  "the claim is an equivalence over all parameter lists and calls; tests sample the calls that must be rejected",
  S + ":from_callable", S + ":_from_raw_signature", S + ":resolve_qualified_paths", M + ":PlainSignature.all_set", M + ":PlainSignature.bind")

p("Exactly which partial objects of declared callables get a signature",
  "If the stubs define a function, class or method of an instance by definitions that Python's parser accepts, then signature_from_callable gives a signature for functools.partial of it exactly if each definition can be read (C110), the arguments can be completed to a call that one of the definitions, as they are read (C109), accepts, and for no definition whose calls the arguments can be completed to a keyword repeats, in the presence of **kwargs, the name of a parameter filled positionally.",
  "all stub tables, all evaluations, all definitions, all functions, builtins, classes and methods of instances, all arguments (nested partial objects are flattened by functools)",
  "the claim is an equivalence over all definitions and all arguments; tests sample the partial objects that must be rejected",
  S + ":from_callable", M + ":PlainSignature.bind", M + ":OverloadedSignature.bind", M + ":PlainSignature.expects")

p("Overlapping starts never use a mixed cache",
  "However the starts of several processes of any versions overlap, each of them reading the cache file piece by piece or taking a file compiled from it earlier, writing it piece by piece and stopping at any point, every main process uses the tables that its own version computes.",
  "all interleavings of any number of processes, all versions, all tables, all points at which they stop",
  "interleavings of reads and writes are unbounded and cannot be forced in a test; a mixed cache shows up as wrong signatures only",
  "paradigm/_core/caching.py:load", "paradigm/_core/caching.py:save", ST, "paradigm/_core/modules.py")


p("Tables do not depend on hash seeds",
  "What is read from stub files does not depend on the order in which Python iterates over sets of names: in whatever orders the names of a test or of the members of a specialised class are visited, the tables of definitions, star imports, superclasses, nodes and kinds are equal, and every name refers to the same object.",
  "all stub files, all orders of all sets, all lists of modules, all recursion limits",
  "the order of a set of strings changes with PYTHONHASHSEED from run to run; a test sees a few of the orders, and the result is cached on disk",
  ST + ":340-360", ST + ":948-969")


p("Members of generic bases are found with arguments",
  "A member that a class does not define itself, but the generic class G of one of its bases G[A, ...] does, and no earlier base has, is found in the stub tables, and its definitions are those in G with the arguments in the place of the type parameters; the signature of a function that has its place there is given by them.",
  "all stub files, all classes, all generic bases, all members, all signatures",
  "it depends on the whole chain from the stub files over the specialisation of all bases to the resolution through superclasses; specialisations of different classes share one table, so that whether it holds depends on all the other modules",
  ST + ":703-972", SC + ":resolve_object_path", S + ":from_callable")


p("Members are inherited in the method resolution order",
  "If the ancestors of a class are known to the stub tables, then resolving a member of the class finds the member of the first class in Python's method resolution order (C3 linearisation) that defines it, and nothing if no ancestor does.",
  "all class hierarchies, all members, all stub files",
  "hierarchies are unbounded, and whether the searched order agrees with the one of Python depends on the whole hierarchy and on which classes define the member",
  SC + ":resolve_object_path", ST + ":703-751", S + ":_resolve_builder_qualified_path")


p("Undeclared methods have the inherited signature",
  "from_callable of a method that is found where it has been defined, but that the stub of its class does not declare, gives the signature written for the method in the first class of Python's method resolution order whose stub declares it.",
  "all libraries, all class hierarchies, all methods, all signatures",
  "stubs leave out many methods that classes override; which declaration applies depends on the whole hierarchy, and the chain goes from the index of the library over resolution to the reading of the declaration",
  S + ":from_callable", SC + ":resolve_object_path", M + ":_to_supported_qualified_paths")


p("Tables do not depend on the order of modules",
  "What is read from stub files does not depend on the order in which the modules are visited, which is the order of a set of tuples of strings: in whatever order they are read, the tables say the same of every module, and every class has the same superclasses.",
  "all stub files, all modules, all orders of modules, all recursion limits",
  "the order of a set of tuples of strings changes with PYTHONHASHSEED from run to run, hundreds of modules have more orders than can be tried, and the result is cached on disk",
  "paradigm/_core/sources.py:80", ST + ":649-700", ST + ":975-980")


p("Answers do not depend on the order of modules",
  "What signature_from_callable answers, whatever it was asked before, does not depend on the order in which the stub modules were read, which is the order of a set of tuples of strings.",
  "all stub files, all modules, all orders of modules, all runtimes, all sequences of callables",
  "the order of a set of tuples of strings changes with PYTHONHASHSEED from run to run, and the tables made in the first run are cached on disk; a test sees the tables of one order",
  "paradigm/_core/sources.py:80", ST + ":649-751", ST + ":975-980", S + ":from_callable")


if __name__ == "__main__":
    out = os.path.join(os.path.dirname(os.path.abspath(__file__)), "..", "properties.jsonl")
    with open(out, "w") as f:
        for x in P:
            f.write(json.dumps(x) + "\n")
    print(len(P))
