# Formal model of lycantropos/paradigm (Lean 4)

The text up to "Properties" is kept in `tools/design_head.md`; the tables below it are written by
`tools/design.py` from `properties.jsonl`, `tools/claims.py`, `tools/plans.py`, the sources and
`#print axioms`.

## Trusted base

* Lean 4.33.0's kernel. No own axioms, no `sorry`, no `native_decide`/`bv_decide`, no `implemented_by`,
  no `unsafe`. Theorems use at most `propext`, `Classical.choice` and `Quot.sound`; the table
  "Axioms" lists them for each claimed theorem. Mathlib is not imported.
* The reading of the Python source. The code was read as text and not run. Each model definition
  cites the file and lines it models and states its simplifications; the table "Code" lists for each
  function of the library the model definitions citing it.
* What is assumed about CPython 3.11 on Linux, each fact written as a small specification or a parameter:
  * calls: the rules of argument binding, `Spec/Call.lean` (language reference 6.3.4);
  * `typing.get_args`/`get_origin`, `==` and `hash` of `typing` objects, `Model/Objects.lean`,
    `Model/Hashing.lean` (the hash itself is a parameter with Python's contract);
  * the shapes of `ast` nodes, `Model/Syntax.lean`, and what `inspect.signature` may report;
  * the syntax of literals, `Spec/Literals.lean`, and the limits of the tokenizer on nesting (200
    brackets), digits (4300) and null characters (none), `Spec/Tokenizer.lean`; the reader of annotations
    (`Spec/Expressions.lean`) does not have these limits;
  * Python's own evaluation of expressions, attributes, operators and imports: the parameter
    `Interpreter` of `Model/Evaluation.lean`, of which nothing is assumed unless a theorem says so;
  * files: a write may stop after any prefix of the text; a cut inside a UTF-8 character is a decoding
    error; in C113 files are written and read piece by piece by several processes, elsewhere they
    are not changed by others while they are read.
* The specifications under `lean/Verif/Spec` and the statements under `lean/Verif/Props`.

## Layout

* `lean/Verif/Model/*`: the model, function by function. Exceptions are values (`Except PyErr`);
  recursion of unknown depth takes the recursion limit as a number (running out is `RecursionError`);
  code that changes tables and survives exceptions is a state-passing function.
* `lean/Verif/Spec/*`: independent specifications (Python's own rules, what a name means, ...).
* `lean/Verif/Lemmas/*`: helper lemmas.
* `lean/Verif/Props/*`: the theorems, named after the properties, each beside an example that meets its
  hypotheses. A property that is false for the code has its full statement as `Cxx_statement`, a
  theorem `Cxx_refuted` with a concrete witness and a theorem `Cxx_..._partial` for what does hold.
* `seeded/LOG.jsonl`, `tools/mutate.py`, `tools/mutants/*`: wrong variants of the model, and which theorems
  reject them.

## What is not modelled

* PyPy and versions other than 3.11 (branches on `sys.version_info` and `sys.implementation` are taken as
  on CPython 3.11), type comments, positions in source files.
* Object identity: two equal new objects are the same.
* Garbage collection: between evaluations any entries of the caches with weak references may vanish
  (`Evaluator.after`, `Collecting`; C29, C102-C104, C108, C109); while an annotation is evaluated none do.
* The order in which sets of names are iterated is a parameter of the model (`StubFiles.order`,
  `SetOrder`, `Interpreter.order`; the order of the set of modules is that of the list the
  reading is given, see C118; see also C74, C114).
* Bodies of functions in stubs (always `...`) and `lambda` in their defaults.
* `evaluation.py:430`: classes made from stubs are also entered into the module `evaluation.py`.
* Times and sizes of files: in `Model/Overlap.lean` (C113) any text compiled earlier may be imported for the
  cache file; elsewhere compiled files belong to their text.
* The computation of the tables is taken to be a function of the version of the library (C53).
* In the theorems on single signatures the evaluation of an annotation is a function (`Runtime.ev`);
  `Model/Session.lean` has the same functions with the caches of `evaluation.py` passed on, and C102 says
  for which callables the two agree.
* Live objects: what `getattr`, `vars`, `inspect.signature`, `__module__`, `__qualname__` give is a
  parameter.
* Abstract methods and `typing` overloads without code (`models.py:278-291,439-445`), the `repr`s of two
  enumerations (`kind.py:12-13`, `models.py:34-38`), decorators (`utils.py`), `pretty.format_exception` (text of a warning).

## Where the code disagrees with a property

The note of each property with status "partial" says where the code violates the property as stated
(`false as stated: ...`); the witness is the theorem `..._refuted`. None of these was repaired in the model:
it follows the code.

## Properties

### C01 Plain signatures accept exactly well-formed parameter lists

PlainSignature(*parameters, returns=r) succeeds iff the parameters have pairwise distinct names, their kinds never decrease (positional-only, positional-or-keyword, *args, keyword-only, **kwargs), there is at most one *args and one **kwargs, and no required positional parameter comes after an optional positional one; otherwise it raises ValueError and nothing else.

* Status: proved. Constructor = legality of parameter lists, otherwise ValueError.
* Model: constructors of `models.py`. Proof: invariant of the validation loop against a declarative definition of legal lists.
* Theorems (Signatures.lean): `C01_plainSignature_accepts_iff`.

### C02 Parameter constructors enforce the kind rules

RequiredParameter(...) succeeds iff kind is positional-only, positional-or-keyword or keyword-only; OptionalParameter(...) succeeds iff the kind is a ParameterKind and it is not a variadic with a default; a non-ParameterKind raises TypeError, any other rejection ValueError; has_default is true exactly when a default was given.

* Status: proved. All kinds, defaults and non-kind arguments.
* Model: constructors of `models.py`. Proof: invariant of the validation loop against a declarative definition of legal lists.
* Theorems (Signatures.lean): `C02_parameter_constructors`, `C02_constructible_iff_valid`.

### C03 bind never yields a malformed signature nor an internal error

For a constructible plain signature, signature.bind(*args, **kwargs) either raises TypeError or returns a plain signature with the same return annotation that the constructor accepts; it never raises ValueError, KeyError or StopIteration.

* Status: proved. Plain and overloaded.
* Model: `bind`, `expects`, `all_set` on lists of parameters. Proof: characterisation of the three algorithms by the numbers of positionals and the sets of names; induction over lists sorted by kind.
* Theorems (Overloads.lean, Signatures.lean): `C03_bind_legal`, `C03_overloaded_bind_legal`.

### C04 Binding nothing changes nothing

signature.bind() returns a signature identical to the original, for plain and for overloaded signatures.

* Status: proved. Plain and overloaded.
* Model: `bind`, `expects`, `all_set` on lists of parameters. Proof: characterisation of the three algorithms by the numbers of positionals and the sets of names; induction over lists sorted by kind.
* Theorems (Overloads.lean, Signatures.lean): `C04_bind_nothing_plain`, `C04_bind_nothing`.

### C05 expects predicts bind

signature.expects(*args, **kwargs) is True iff signature.bind(*args, **kwargs) does not raise.

* Status: partial. False as stated: with **kwargs, a keyword repeating the name of a positionally filled parameter is expected but bind raises; proved outside that case.
* Model: `bind`, `expects`, `all_set` on lists of parameters. Proof: characterisation of the three algorithms by the numbers of positionals and the sets of names; induction over lists sorted by kind.
* Theorems (Exact.lean, Signatures.lean): `C05_expects_iff_bind_partial`, `C05_refuted`, `C05_refuted_positional_only`, `C05_collision_always_raises`, `C05_bind_iff`.

### C06 all_set is exactly 'Python would accept this call'

signature.all_set(*args, **kwargs) is True iff calling a function with that signature with those arguments passes Python's argument binding (no missing, unexpected or doubly given argument).

* Status: partial. False as stated: g(a, **kw) with (1, a=2); proved outside that case, and one direction always.
* Model: the same, against the slot-filling specification of Python calls. Proof: both sides reduced to conditions on counts and names.
* Theorems (Exact.lean, Overloads.lean, Signatures.lean): `C06_allSet_iff_accepts_partial`, `C06_accepts_implies_allSet`, `C06_overloaded_partial`, `C06_refuted`, `C06_accepts_iff`, `C06_overloaded_iff`.

### C07 A complete argument list is always an acceptable one

signature.all_set(*args, **kwargs) implies signature.expects(*args, **kwargs).

* Status: proved.
* Model: `bind`, `expects`, `all_set` on lists of parameters. Proof: characterisation of the three algorithms by the numbers of positionals and the sets of names; induction over lists sorted by kind.
* Theorems (Signatures.lean): `C07_allSet_implies_expects_plain`, `C07_allSet_implies_expects`.

### C08 expects means 'can be completed'

signature.expects(*args, **kwargs) is True iff there are further positional arguments and further keyword arguments such that all_set holds for the extended call.

* Status: proved.
* Model: the same, against the slot-filling specification of Python calls. Proof: both sides reduced to conditions on counts and names.
* Theorems (Exact.lean, Overloads.lean, Signatures.lean): `C08_expects_iff_completable`, `C08_overloaded`, `C08_completable_iff`.

### C09 bind is partial application

If signature.bind(*a, **k) returns b, then for all further arguments a call of b with (*r, **rk) is accepted by Python's binding rules iff a call of the original with (*a, *r, **{**k, **rk}) is.

* Status: partial. False as stated with **kwargs: after g.bind(1) the call (a=2) is accepted; proved outside that case.
* Model: the same, against the slot-filling specification of Python calls. Proof: both sides reduced to conditions on counts and names.
* Theorems (Exact.lean, Signatures.lean): `C09_bind_partial_application_partial`, `C09_bind_partial_application_no_var_keyword`, `C09_refuted`, `C09_combined_iff`.

### C10 Binding in two steps equals binding in one

signature.bind(*a, **k).bind(*r, **rk) and signature.bind(*a, *r, **k, **rk) both fail or return the same signature, for disjoint keyword sets.

* Status: partial. False as stated with **kwargs and a keyword repeating a positionally filled name; proved outside that case.
* Model: the same, against the slot-filling specification of Python calls. Proof: both sides reduced to conditions on counts and names.
* Theorems (Exact.lean, Signatures.lean): `C10_bind_twice_partial`, `C10_refuted`, `C10_refuted_positional_only`, `C10_at_once_iff`.

### C11 A bound keyword becomes an optional keyword-only parameter whose default is the bound value

After signature.bind(**kwargs) succeeds, every kwarg naming a parameter leaves that parameter optional, keyword-only and with the bound value as its default.

* Status: partial. False as stated: an existing default is kept; proved with the exact default.
* Model: the same, against the slot-filling specification of Python calls. Proof: both sides reduced to conditions on counts and names.
* Theorems (Binding.lean): `C11_bound_keyword_partial`, `C11_refuted`.

### C12 bind touches nothing else

A successful bind(*args, **kwargs) removes exactly the first len(args) positional parameters, plus *args when a positional parameter is bound by keyword; the remaining parameters keep their order, names and annotations, are never made required, and parameters not bound keep their requiredness and default; only positional-or-keyword parameters at or after the first bound keyword change kind (to keyword-only).

* Status: proved.
* Model: `bind`, `expects`, `all_set` on lists of parameters. Proof: characterisation of the three algorithms by the numbers of positionals and the sets of names; induction over lists sorted by kind.
* Theorems (Binding.lean): `C12_bind_frame`.

### C13 Acceptance is downward closed

If a signature expects some arguments then it expects any prefix of the positional arguments together with any subset of the keyword arguments; the same holds for bind succeeding.

* Status: partial. Expects: all signatures; bind: all plain signatures; bind of overloaded ones is a counterexample.
* Model: `bind`, `expects`, `all_set` on lists of parameters. Proof: characterisation of the three algorithms by the numbers of positionals and the sets of names; induction over lists sorted by kind.
* Theorems (Overloads.lean, Signatures.lean): `C13_expects_downward_plain`, `C13_expects_downward`, `C13_bind_downward_plain`, `C13_bind_downward_partial`, `C13_overloaded_bind_refuted`.

### C14 Keyword order never matters

expects, all_set and bind give the same answer for two keyword dictionaries with the same items in a different insertion order.

* Status: proved.
* Model: `bind`, `expects`, `all_set` on lists of parameters. Proof: characterisation of the three algorithms by the numbers of positionals and the sets of names; induction over lists sorted by kind.
* Theorems (Binding.lean): `C14_keyword_order`.

### C15 Acceptance looks only at the number of positionals and the keyword names

expects, all_set and the success of bind do not depend on the argument values.

* Status: proved.
* Model: `bind`, `expects`, `all_set` on lists of parameters. Proof: characterisation of the three algorithms by the numbers of positionals and the sets of names; induction over lists sorted by kind.
* Theorems (Binding.lean): `C15_values_irrelevant`, `C15_bind_values_irrelevant`.

### C16 An overloaded signature accepts what some overload accepts, and binds exactly those

OverloadedSignature.bind(*args, **kwargs) raises TypeError iff no overload expects the arguments; otherwise it returns the bindings of exactly the accepting overloads, in declaration order, collapsed to a plain signature when there is one.

* Status: partial. False as stated: one colliding overload makes the whole bind raise; result half holds always.
* Model: overloaded signatures. Proof: induction over the overloads, theorems on plain signatures.
* Theorems (Exact.lean, Overloads.lean): `C16_overloaded_bind_partial`, `C16_result`, `C16_refuted`, `C16_bind_iff`.

### C17 Combining signatures flattens and is associative

Combining signatures yields the flat list of their plain members in order; combining in groups gives the same result; the result is overloaded iff there are at least two members, and combining nothing raises ValueError.

* Status: proved.
* Model: overloaded signatures. Proof: induction over the overloads, theorems on plain signatures.
* Theorems (Overloads.lean): `C17_combine`, `C17_combine_groups`.

### C18 Partial application of an overloaded signature

If binding an overloaded signature succeeds, a later call is accepted by the result iff the combined call is accepted by the original overloaded signature, under Python's binding rules.

* Status: partial. Same exclusion as C09.
* Model: overloaded signatures. Proof: induction over the overloads, theorems on plain signatures.
* Theorems (Exact.lean, Overloads.lean): `C18_overloaded_partial_application_partial`, `C18_refuted`, `C18_complete`, `C18_combined_iff`.

### C19 Signature equality is an equivalence relation

== on parameters and signatures is reflexive, symmetric and transitive.

* Status: partial. False as stated: nan defaults are not reflexive; list == typing.List and List[int] == list[int] only one way round; proved for regular values.
* Model: `annotated.are_equal`, `__eq__`, `__hash__` with a parametric hash. Proof: structural induction over annotation objects; witnesses.
* Theorems (Equality.lean): `C19_refl_partial`, `C19_equivalence_partial`, `C19_refl_refuted`, `C19_symm_refuted`, `C19_symm_refuted_nested`, `C19_refuted`.

### C20 Equal signatures have equal hashes

If two hashable parameters or signatures compare equal then their hashes are equal, so they can be used interchangeably as dictionary keys.

* Status: partial. False as stated: distinct equal type variables hash by identity; proved where are_equal refines ==.
* Model: `annotated.are_equal`, `__eq__`, `__hash__` with a parametric hash. Proof: structural induction over annotation objects; witnesses.
* Theorems (Equality.lean): `C20_equal_hash_partial`, `C20_refuted`.

### C21 Pickling round-trips

Rebuilding a parameter or signature from its pickling arguments succeeds and gives back the same value.

* Status: proved. Parameters, plain and overloaded signatures.
* Model: pickling arguments, `__str__`, `__repr__`, `to_repr`. Proof: case analysis; a reader of parameter lists as specification and a round trip.
* Theorems (Equality.lean): `C21_pickle_roundtrip`.

### C22 str shows every parameter's kind unambiguously

Reading the comma separated parts of str(signature) by Python's rules for '/', '*', '*name' and '**name' recovers each parameter's name and kind, in order.

* Status: proved. Reader works on the whole text; hypothesis: names are identifiers, printed values are self-contained expressions (proved for to_repr when the runtime texts are).
* Model: pickling arguments, `__str__`, `__repr__`, `to_repr`. Proof: case analysis; a reader of parameter lists as specification and a round trip.
* Theorems (Text.lean): `C22_str_readable`, `C22_str_readable_runtime`.

### C23 repr and str of a signature embed those of its parts

repr(signature) contains the repr of each parameter (and of each overload), str(signature) the str of each parameter (and of each overload), in order.

* Status: proved.
* Model: pickling arguments, `__str__`, `__repr__`, `to_repr`. Proof: case analysis; a reader of parameter lists as specification and a round trip.
* Theorems (Text.lean): `C23_plain_text`, `C23_overloaded_text`.

### C24 The inspect fallback preserves the callable's signature

Converting an inspect.Signature yields a signature with the same names, kinds, order, defaults and requiredness, never raises for a signature inspect can produce, and accepts exactly the calls the original accepts.

* Status: partial. False as stated: several *args raise ValueError, a default equal to the internal marker is lost, and C06 collisions.
* Model: conversion of `inspect` signatures. Proof: list induction; acceptance compared with the call specification.
* Theorems (Definitions.lean): `C24_inspect_fallback_partial`, `C24_refuted`, `C24_refuted_marker`, `C24_refuted_collision`.

### C25 Stub defaults are attached to the right parameters

For a stub function definition the d positional defaults belong to the last d positional parameters, in order; keyword-only defaults to their own parameter; a parameter is optional iff it has a default or is variadic, and '...' defaults mean optional without a known default.

* Status: proved. The adjustment of the first parameter for methods and constructors is part of the statement.
* Model: conversion of `ast.arguments`, the constructor of named tuples. Proof: alignment of defaults as a list lemma; acceptance compared with the call specification of the definition.
* Theorems (Definitions.lean): `C25_defaults`.

### C26 Every stub definition yields a legal signature

The parameter list built from a stub function definition is accepted by PlainSignature, for functions, methods, class methods and constructors.

* Status: partial. False as stated: defaults before '/' raise AttributeError, parameterless methods raise IndexError.
* Model: conversion of `ast.arguments`, the constructor of named tuples. Proof: alignment of defaults as a list lemma; acceptance compared with the call specification of the definition.
* Theorems (Definitions.lean): `C26_legal_partial`, `C26_refuted`, `C26_refuted_empty`.

### C27 A stub-derived signature never over-accepts

Whatever call the signature built from a stub definition accepts, the defined function accepts too.

* Status: partial. False as stated: keywords repeating a positionally filled name with **kwargs; static methods with keyword-only first parameter.
* Model: conversion of `ast.arguments`, the constructor of named tuples. Proof: alignment of defaults as a list lemma; acceptance compared with the call specification of the definition.
* Theorems (Definitions.lean): `C27_never_over_accepts_partial`, `C27_refuted`, `C27_refuted_static`.

### C28 Signature of a partial is the bound signature of its function

signature_from_callable(functools.partial(f, *a, **k)) equals signature_from_callable(f).bind(*a, **k), through any nesting of partials, and nested partials give the same signature as the flattened one.

* Status: partial. First half holds; nested and flattened partials differ for keywords bound twice and for keywords repeating a positionally filled name with **kwargs.
* Model: dispatch of `from_callable`, lookup of paths and constructors; live objects are parameters. Proof: induction over nested callables and over ancestors.
* Theorems (Lookup.lean, SessionAnswers.lean): `C28_partial_is_bind_partial`, `C28_session_partial`, `C28_refuted`, `C28_refuted_rebinding`.

### C29 Overloads keep their declaration order and number

The signature of a callable declared with n overloads in a stub has its plain members in declaration order, one per declaration; n = 1 gives a plain signature.

* Status: proved. From the source text tree to the signature, for every sequence of questions; names before / are not kept (see C62).
* Model: the stub parser, the evaluator with its state and the lookup of callables; what Python does with objects is a parameter that never raises the private exception class. Proof: every evaluator function is shown not to raise the private exception class, so `inspect` is not consulted; names of the parameters are followed through construction and binding.
* Theorems (DeclaredOverloads.lean): `C29_source`, `C29_function`, `C29_class`, `C29_bound`.

### C30 A class signature comes from the constructor Python would run

For a class described by stubs the signature is that of the first __init__ (else __new__) found along its ancestors; object's constructor is used only if none defines one.

* Status: partial. False as stated: the constructor of a base class is looked up under the name of the derived class.
* Model: dispatch of `from_callable`, lookup of paths and constructors; live objects are parameters. Proof: induction over nested callables and over ancestors.
* Theorems (Callables.lean, Lookup.lean): `C30_constructor_partial`, `C30_own_constructor`, `C30_locations`, `C30_declared_class`, `C30_refuted`, `C30_refuted_namesake`.

### C31 Unresolvable callables fall back, they never leak the internal not-found error

signature_from_callable on a function, method or class either returns a signature built from stubs or the one inspect reports; the internal 'signature not found' condition never escapes.

* Status: partial. Second half holds; AttributeError leaks for defaults before '/', KeyError for missing kinds, AssertionError for functions whose __module__ is not a text.
* Model: dispatch of `from_callable`, lookup of paths and constructors; live objects are parameters. Proof: induction over nested callables and over ancestors.
* Theorems (Callables.lean, Lookup.lean, SessionAnswers.lean): `C31_not_found_never_escapes`, `C31_session`, `C31_fallback_partial`, `C31_fallback_session_partial`, `C31_undeclared_partial`, `C31_refuted`, `C31_refuted_kind`, `C31_refuted_module`.

### C32 Name resolution only returns defined objects

If resolving an object path in a module succeeds with (module, path) then that module is known and the path is defined in it.

* Status: proved.
* Model: `scoping.resolve_object_path` with a recursion limit. Proof: induction over the limit; measures on unvisited star imports; ranks of references; divergence by induction.
* Theorems (Scoping.lean): `C32_resolved_is_defined`.

### C33 Name resolution is idempotent

Resolving the result of a resolution again, from module level, gives the same result.

* Status: proved.
* Model: `scoping.resolve_object_path` with a recursion limit. Proof: induction over the limit; measures on unvisited star imports; ranks of references; divergence by induction.
* Theorems (Scoping.lean): `C33_resolve_idempotent`.

### C34 Local definitions shadow star imports, which shadow explicit references, which shadow builtins

A name is looked up in the enclosing class, then the module, then star-imported modules in order, then explicit imports/aliases (longest prefix first), then builtins; the first hit decides.

* Status: partial. False as stated: any star import makes a builtins name win over an explicit import; each layer is proved separately with the nested answers as hypotheses.
* Model: `scoping.resolve_object_path` with a recursion limit. Proof: induction over the limit; measures on unvisited star imports; ranks of references; divergence by induction.
* Theorems (Scoping.lean): `C34_reference_decides_partial`, `C34_refuted`, `C34_class_first`, `C34_module_second`, `C34_star_third`, `C34_reference_fourth`, `C34_builtins_last`.

### C35 Star-import cycles are harmless

When a name is bound only through definitions and star imports, resolution always terminates, finds the name iff some module reachable by star imports defines it, and reports not-found otherwise, however the star imports are cyclic.

* Status: proved. Single names without explicit imports; builtins accounted for.
* Model: `scoping.resolve_object_path` with a recursion limit. Proof: induction over the limit; measures on unvisited star imports; ranks of references; divergence by induction.
* Theorems (Scoping.lean): `C35_star_imports`.

### C36 Resolution terminates

Resolving any name in any stub tables terminates.

* Status: partial. False as stated: two modules importing the same name from each other recurse forever; proved for ranked tables.
* Model: `scoping.resolve_object_path` with a recursion limit. Proof: induction over the limit; measures on unvisited star imports; ranks of references; divergence by induction.
* Theorems (Scoping.lean): `C36_terminates_partial`, `C36_refuted`.

### C37 Attributes are inherited along the declared bases

Resolving Class.attr where the class does not define attr finds it in the first declared base (in order) from which it resolves, and in builtins.object if no base has it.

* Status: partial. False as stated: a base found through a star import of the module of the class is lost, and a class named object has no fallback.
* Model: `scoping.resolve_object_path` with a recursion limit. Proof: induction over the limit; measures on unvisited star imports; ranks of references; divergence by induction.
* Theorems (Scoping.lean): `C37_inherited_partial`, `C37_object_partial`, `C37_no_star_partial`, `C37_refuted`, `C37_refuted_object_name`.

### C38 The supported-path index keeps exactly the resolvable locations

Filtering the index keeps, in order, exactly the locations that resolve in the stub tables, and leaves no empty entries.

* Status: proved. If no location raises anything but ObjectNotFound.
* Model: `scoping.resolve_object_path` with a recursion limit. Proof: induction over the limit; measures on unvisited star imports; ranks of references; divergence by induction.
* Theorems (Scoping.lean): `C38_index_filter`.

### C39 Every stub module is parsed at most once

During state parsing each module's source is visited at most once, however modules import each other, and re-visiting leaves the tables unchanged.

* Status: proved.
* Model: the state parser of `stubs.py` on abstract stub syntax. Proof: invariants preserved by every visitor, by induction over statements and the limit.
* Theorems (Stubs.lean): `C39_read_once`, `C39_revisit`, `C39_others`.

### C40 Everything recorded is defined

After parsing, each object path with a recorded syntax node or kind is a defined path of its module.

* Status: proved. Also when the parse ends with an exception.
* Model: the state parser of `stubs.py` on abstract stub syntax. Proof: invariants preserved by every visitor, by induction over statements and the limit.
* Theorems (Parsed.lean, Stubs.lean): `C40_recorded_defined`, `C40_parsed`.

### C41 Only the taken branch of a version/platform check is recorded

For an if/elif/else chain in a stub exactly the definitions of the branch selected by the evaluated conditions are recorded.

* Status: partial. False as stated: a test that is a single name raises NameError; proved for all other tests; untaken branches never matter.
* Model: the state parser of `stubs.py` on abstract stub syntax. Proof: invariants preserved by every visitor, by induction over statements and the limit.
* Theorems (Stubs.lean): `C41_branch_partial`, `C41_untaken_irrelevant`, `C41_refuted`.

### C42 Import statements bind the names Python binds

import a.b.c makes a, a.b and a.b.c refer to those modules; import a.b as n binds only n; from m import x as y binds y (or x) to x of m.

* Status: proved.
* Model: the state parser of `stubs.py` on abstract stub syntax. Proof: invariants preserved by every visitor, by induction over statements and the limit.
* Theorems (Stubs.lean): `C42_import`, `C42_from`, `C42_resolve`.

### C43 A class-level alias belongs to its class

An assignment x = y inside a class body makes Class.x resolve to y and binds nothing at module level.

* Status: partial. False as stated: aliases in classes are bound at module level.
* Model: the state parser of `stubs.py` on abstract stub syntax. Proof: invariants preserved by every visitor, by induction over statements and the limit.
* Theorems (Trees.lean): `C43_module_alias_partial`, `C43_refuted`.

### C44 Relative imports resolve as in Python

from ..p import x in a module resolves to the module path that Python's import system computes.

* Status: partial. False as stated: imports beyond the top-level package are accepted; proved for all imports Python accepts.
* Model: the state parser of `stubs.py` on abstract stub syntax. Proof: invariants preserved by every visitor, by induction over statements and the limit.
* Theorems (Trees.lean): `C44_relative_partial`, `C44_absolute`, `C44_refuted`.

### C45 Generic parameters are collected in order of first appearance

The type arguments collected from a (nested) generic base are its leaves, each exactly once, in left-to-right order.

* Status: partial. False as stated: the order of nested arguments is wrong.
* Model: the state parser of `stubs.py` on abstract stub syntax. Proof: invariants preserved by every visitor, by induction over statements and the limit.
* Theorems (Trees.lean): `C45_collected_partial`, `C45_refuted`.

### C46 Generic specialisation is simultaneous substitution

Specialising a class's members replaces exactly the occurrences of its type parameters by the corresponding arguments, simultaneously, and changes nothing else.

* Status: partial. False as stated: attributes of parameters are not replaced, attributes of calls raise TypeError.
* Model: specialisation of generic bases. Proof: structural induction over trees for substitution; invariants of the registration; witnesses.
* Theorems (Specialization.lean): `C46_substitution_partial`, `C46_members_partial`, `C46_refuted`, `C46_attribute_of_call`.

### C47 Distinct specialisations are kept apart

Two different generic base expressions never share one entry in the specialisations table.

* Status: partial. False as stated: A[b.C] and A[b, C] share an entry, so do equally named bases of different modules.
* Model: specialisation of generic bases. Proof: structural induction over trees for substitution; invariants of the registration; witnesses.
* Theorems (Specialization.lean): `C47_plain_partial`, `C47_words_partial`, `C47_refuted`, `C47_modules_refuted`.

### C48 A named tuple class gets the constructor of its fields

For a NamedTuple class in a stub the generated constructor takes the annotated fields in order, with the given defaults.

* Status: partial. False as stated: fields below version checks are forgotten.
* Model: conversion of `ast.arguments`, the constructor of named tuples. Proof: alignment of defaults as a list lemma; acceptance compared with the call specification of the definition.
* Theorems (Trees.lean): `C48_constructor_partial`, `C48_recorded`, `C48_refuted`.

### C49 Tree iteration yields each descendant exactly once

Iterating the children of a syntax node recursively terminates and yields each proper descendant exactly once, shallower ones first.

* Status: proved. On expression nodes.
* Model: `recursively_iterate_children` as a queue. Proof: induction over the queue with the multiset of pending subtrees.
* Theorems (Trees.lean): `C49_each_once`, `C49_shallow_first`, `C49_ends`.

### C50 Dotted names and paths correspond

Splitting a dotted string and joining it again is the identity; joining a path of dot-free parts and splitting it gives the path back; attribute chains map one-to-one to non-empty paths.

* Status: partial. False as stated: the empty path comes back as one empty part.
* Model: `catalog` paths, `sources`, `discovery`. Proof: list and string lemmas.
* Theorems (Sources.lean): `C50_join_split`, `C50_split_join_partial`, `C50_to_path`, `C50_chain`, `C50_chain_injective`, `C50_parent`, `C50_refuted`.

### C51 Saved cache values are read back unchanged

Evaluating the text written for a value (nested dicts, lists, tuples, strings, ints) gives back an equal value.

* Status: partial. False as stated: CPython rejects texts with more than 200 nested brackets or numbers of more than 4300 digits; proved for all other values (numbers, strings, tuples, lists, sets and dicts), and that exactly these are rejected; the reader of literals is part of the trusted specification.
* Model: `pretty.repr_from`, `caching.save/load`. Proof: printer and reader round trip at the level of characters; the limits of the tokenizer (brackets, digits) are a scan of the text, computed for the printed text of every value; every proper prefix is rejected.
* Theorems (Pretty.lean): `C51_roundtrip_partial`, `C51_limits`, `C51_refuted`.

### C52 A crash while saving never leaves a cache that is silently used

If writing the cache file stops at any point, the next start either gets the complete saved data or rebuilds; it never uses a partial or mixed cache.

* Status: proved. That the complete file is loaded holds within the limits of the tokenizer (see C51); the compiled file and concurrent writers are not modelled.
* Model: `pretty.repr_from`, `caching.save/load`. Proof: printer and reader round trip at the level of characters; the limits of the tokenizer (brackets, digits) are a scan of the text, computed for the printed text of every value; every proper prefix is rejected.
* Theorems (Caching.lean): `C52_cut`, `C52_full`.

### C53 A cache written by another version is rebuilt, never used

Whatever sequence of library versions ran before, the tables in use after start-up were computed by the running version.

* Status: partial. False as stated: child processes start with empty tables when there is no usable cache; proved for the main process.
* Model: start-up decision and cache file name. Proof: induction over histories of processes.
* Theorems (Caching.lean): `C53_main_partial`, `C53_child_partial`, `C53_settled`, `C53_refuted`.

### C54 Different environments use different cache files

The cache file name differs whenever mypy version, platform, implementation or Python version differ.

* Status: partial. False as stated for components with underscores; proved for components without.
* Model: start-up decision and cache file name. Proof: induction over histories of processes.
* Theorems (Caching.lean): `C54_injective_partial`, `C54_modules`, `C54_refuted`.

### C55 Running a function in a child process restores __main__

After call_in_process returns or raises, sys.modules['__main__'] is what it was before, also when calls overlap in several threads.

* Status: partial. False as stated: every call makes its own lock, so overlapping calls leave __main__ replaced; proved for calls that do not overlap, and for all interleavings if the lock were shared.
* Model: `call_in_process` as one small-step machine per thread. Proof: induction over interleavings; witness.
* Theorems (Execution.lean): `C55_exclusive_partial`, `C55_shared_lock`, `C55_never_stuck`, `C55_refuted`.

### C56 The child's outcome is the caller's outcome

call_in_process returns what the function returned or raises what it raised, and always terminates when the function does.

* Status: partial. False as stated: an unpicklable result, an exit or a kill blocks the caller for ever.
* Model: `call_in_process` as one small-step machine per thread. Proof: induction over interleavings; witness.
* Theorems (Execution.lean): `C56_outcome_partial`, `C56_blocked_iff`, `C56_broken`, `C56_refuted`.

### C57 The object index terminates and is sound

Indexing any graph of modules and classes terminates, and each location listed under a qualified path really leads, attribute by attribute, to an object with that qualified path.

* Status: proved. Attributes are the entries of vars().
* Model: `index.py` on object graphs. Proof: measure on unvisited classes; induction over paths.
* Theorems (Catalog.lean, Index.lean): `C57_terminates`, `C57_sound`, `C57_named`.

### C58 No unsupported module is ever imported by discovery

No supported module path equals or lies below an unsupported one, and every other standard module stays supported.

* Status: proved.
* Model: `catalog` paths, `sources`, `discovery`. Proof: list and string lemmas.
* Theorems (Sources.lean): `C58_supported`, `C58_none_below`, `C58_platform`.

### C59 Source files map to the module Python would import from them

A file a/b.py maps to a.b, a/b/__init__.py to a.b, and distinct files map to distinct modules unless they are x.py and x/__init__.py.

* Status: partial. False as stated: x.py and x.so give one module, and an __init__ with a tagged suffix is not seen as a package; proved for stub files and simple suffixes.
* Model: `catalog` paths, `sources`, `discovery`. Proof: list and string lemmas.
* Theorems (Sources.lean): `C59_module`, `C59_stub`, `C59_stubs_distinct_partial`, `C59_package`, `C59_stub_used`, `C59_package_source`, `C59_stdlib`, `C59_refuted`, `C59_package_refuted`.

### C60 Qualified paths of a callable are canonical

The candidate locations computed for a callable are sorted, free of duplicates and each resolves to itself in the stub tables.

* Status: proved.
* Model: dispatch of `from_callable`, lookup of paths and constructors; live objects are parameters. Proof: induction over nested callables and over ancestors.
* Theorems (Lookup.lean): `C60_canonical`.

### C61 Resolution fails only by reporting that the object was not found

Resolving an object path at module level, in tables where builtins and all references of known modules are present, either succeeds, raises ObjectNotFound or exhausts the stack; it never raises AssertionError or KeyError.

* Status: partial. False as stated: AssertionError for unresolvable imports, even legal circular ones; proved when imports point at definitions.
* Model: `scoping.resolve_object_path` with a recursion limit. Proof: induction over the limit; measures on unvisited star imports; ranks of references; divergence by induction.
* Theorems (Scoping.lean): `C61_only_not_found_partial`, `C61_refuted`, `C61_refuted_legal_import`.

### C62 A stub-derived signature accepts the positional calls of the function

Whatever call the function defined in a stub accepts without passing a positional parameter by keyword, the signature built from its definition accepts.

* Status: partial. False as stated: parameters before '/' are dropped, the first parameter of a static method is required; proved for the other definitions in all roles.
* Model: conversion of `ast.arguments`, the constructor of named tuples. Proof: alignment of defaults as a list lemma; acceptance compared with the call specification of the definition.
* Theorems (Definitions.lean): `C62_positional_calls_partial`, `C62_refuted`, `C62_refuted_static`.

### C63 Only legal signatures are returned

Whatever signature_from_callable returns, for any callable and any nesting of partials, could have been built through the public constructors from legal parameters.

* Status: proved.
* Model: dispatch of `from_callable`, lookup of paths and constructors; live objects are parameters. Proof: induction over nested callables and over ancestors.
* Theorems (Lookup.lean, SessionAnswers.lean): `C63_legal`, `C63_session`.

### C64 The signature of a bound method is that of the function without its first argument

For a method bound to an instance or, for a class method, to its class, the returned signature accepts a call exactly when the underlying function's signature accepts it with the bound object put in front.

* Status: partial. False as stated: builtin class methods such as dict.fromkeys keep their first parameter; class methods written in Python are not looked up in the stubs at all.
* Model: dispatch of `from_callable`, lookup of paths and constructors; live objects are parameters. Proof: induction over nested callables and over ancestors.
* Theorems (Callables.lean, Lookup.lean): `C64_instance_partial`, `C64_class_partial`, `C64_refuted`.

### C65 Reading stub files needs only a finite stack

For finitely many stub files there is a recursion depth with which the state parser finishes (with tables or an ordinary exception), whatever the files import from each other.

* Status: partial. False as stated: star-import cycles are looked through forever; proved without such cycles.
* Model: the state parser of `stubs.py` on abstract stub syntax. Proof: invariants preserved by every visitor, by induction over statements and the limit.
* Theorems (Recursion.lean): `C65_terminates_partial`, `C65_refuted`.

### C66 All ancestors of a specialised generic base are registered

If a stub class derives from a specialised generic class, the chain of superclasses recorded for the specialisation has the generic class's own bases, and theirs, with the arguments substituted all the way up.

* Status: partial. False as stated: only two levels of ancestors are registered.
* Model: specialisation of generic bases. Proof: structural induction over trees for substitution; invariants of the registration; witnesses.
* Theorems (Specialization.lean): `C66_direct_partial`, `C66_refuted`.

### C67 A stub module is recorded completely or the parse fails

If the state parser finishes normally, every module that was read has all of its definitions recorded, in source order, and nothing else.

* Status: partial. False as stated: an unresolvable name in a module read during the lookup of another name leaves it half read without an error.
* Model: the state parser of `stubs.py` on abstract stub syntax. Proof: invariants preserved by every visitor, by induction over statements and the limit.
* Theorems (Stubs.lean): `C67_complete_partial`, `C67_nothing_else`, `C67_refuted`.

### C68 The recursion limit never changes an answer

If the state parser stays within one recursion limit, then under any higher limit it ends in the same way with the same tables.

* Status: proved.
* Model: the state parser of `stubs.py` on abstract stub syntax. Proof: invariants preserved by every visitor, by induction over statements and the limit.
* Theorems (Recursion.lean): `C68_limit_irrelevant`.

### C69 Specialised base classes do not influence each other

For a stub class deriving from G[args], the superclasses recorded for G[args] are those of G with the arguments in the place of the parameters, whatever other specialisations of G the stubs contain.

* Status: partial. False as stated: the first specialisation changes the stored bases of the generic class.
* Model: specialisation of generic bases. Proof: structural induction over trees for substitution; invariants of the registration; witnesses.
* Theorems (Specialization.lean): `C66_direct_partial`, `C69_refuted`, `C69_witness`.

### C70 Names in specialised members keep their meaning

A name used in a member of a generic class means the same object in the copy of that member made for a specialisation of the class.

* Status: partial. False as stated: references are kept by bare name, the last writer wins.
* Model: specialisation of generic bases. Proof: structural induction over trees for substitution; invariants of the registration; witnesses.
* Theorems (Specialization.lean): `C70_fresh_partial`, `C70_refuted`.

### C71 Processing base classes leaves the modules alone

Processing the bases of all classes changes neither definitions nor syntax trees, kinds, references or star imports recorded for any stub module; superclasses are only appended. This holds even if it ends with an exception.

* Status: proved. Also when processing ends with an exception.
* Model: specialisation of generic bases. Proof: structural induction over trees for substitution; invariants of the registration; witnesses.
* Theorems (Specialization.lean): `C71_modules_kept`.

### C72 Resolvable bases never make reading the stubs fail

If every base of every stub class is a class or a subscripted generic class that can be resolved, processing the bases raises no exception and records the bases of each class in order.

* Status: partial. False as stated: nested classes raise KeyError, list arguments TypeError, arguments of inherited bases are looked for in the wrong module; proved for plain bases and for subscripted ones whose members and names are recorded.
* Model: specialisation of generic bases. Proof: structural induction over trees for substitution; invariants of the registration; witnesses.
* Theorems (Bases.lean): `C72_plain_partial`, `C72_processable_partial`, `C72_read_partial`, `C72_refuted`, `C72_nested_class`, `C72_list_argument`, `C72_unknown_argument`.

### C73 The object index misses nothing

Every object that can be reached from an importable module, attribute by attribute, without passing through a class twice, is listed with that path under its qualified path, if it has one.

* Status: proved.
* Model: `index.py` on object graphs. Proof: measure on unvisited classes; induction over paths.
* Theorems (Index.lean): `C73_complete`.

### C74 Equal tables are saved as the same text

Two equal values, whatever the order in which their dictionaries were filled, are written to the cache as the same text, so that the cache file is reproducible.

* Status: partial. False as stated: sets are written in the order of iteration; proved for values without sets.
* Model: `pretty.repr_from`, `caching.save/load`. Proof: printer and reader round trip at the level of characters; the limits of the tokenizer (brackets, digits) are a scan of the text, computed for the printed text of every value; every proper prefix is rejected.
* Theorems (Pretty.lean): `C74_equal_partial`, `C74_refuted`.

### C75 Annotations in signatures mean what Python says

An annotation or default of a stub whose names all exist at run time is, in the signature, the object Python's own evaluation of the expression gives.

* Status: partial. False as stated: subscribing a class that is not generic gives the class; proved where Python gives a value, and exactly for Python with the two fallbacks.
* Model: `evaluation.py` with Python itself as a parameter. Proof: mutual structural induction over expressions; invariant of the caches; measure on what is not cached yet.
* Theorems (Evaluation.lean): `C75_value_partial`, `C75_lenient_partial`, `C75_attributes`, `C75_refuted`.

### C76 Annotations do not depend on the order of questions

The value of an annotation in a signature is the same whatever signatures were asked for before in the same process.

* Status: partial. False as stated for aliases that use each other; proved for expressions without circular aliases, whatever was asked before within the recursion limit.
* Model: `evaluation.py` with Python itself as a parameter. Proof: mutual structural induction over expressions; invariant of the caches; measure on what is not cached yet.
* Theorems (Evaluation.lean, Session.lean): `C76_meaning_partial`, `C76_whatever_partial`, `C76_parsed_partial`, `C76_refuted`.

### C77 A failed annotation fails again

If evaluating an annotation raises an exception, asking again in the same process raises the same exception.

* Status: partial. False as stated: the placeholder of a failed alias stays in the cache; proved for names that exist at run time.
* Model: `evaluation.py` with Python itself as a parameter. Proof: mutual structural induction over expressions; invariant of the caches; measure on what is not cached yet.
* Theorems (Evaluation.lean): `C77_available_partial`, `C77_refuted`.

### C78 The last definition of a stub object counts

A name that is defined several times in a stub module and does not exist at run time has the value of its last definition, as it would have in Python.

* Status: partial. False as stated for assignments (the first one is cached); proved for functions.
* Model: `evaluation.py` with Python itself as a parameter. Proof: mutual structural induction over expressions; invariant of the caches; measure on what is not cached yet.
* Theorems (Evaluation.lean): `C78_functions_partial`, `C78_refuted`.

### C79 Evaluating annotations ends

Evaluating an annotation ends, even if stub objects refer to themselves or to each other, provided that their names can be resolved.

* Status: partial. False as stated for stub classes with themselves as an attribute; proved where no class exists in stubs only.
* Model: `evaluation.py` with Python itself as a parameter. Proof: mutual structural induction over expressions; invariant of the caches; measure on what is not cached yet.
* Theorems (Evaluation.lean): `C79_terminates_partial`, `C79_refuted`.

### C80 Postponing annotations changes nothing else

When a function that only exists in a stub is made, names, kinds, order and defaults of its parameters and its decorators are kept; only annotations are replaced, each by a string, and none appears or vanishes.

* Status: proved. No lambda in defaults.
* Model: postponed annotations. Proof: case analysis.
* Theorems (Evaluation.lean): `C80_postponed`.

### C81 Return annotations say what is declared

A signature built from a stub definition returns what the definition declares (Any if nothing is declared), and the signature of a class returns an instance of the class.

* Status: partial. False as stated: __new__ without annotation returns Any, and async functions are treated as plain ones; proved for definitions, __init__ and the fallback.
* Model: the handlers of definitions, assignments and expressions, the choice among places, `_value_has_qualified_path` on a graph of live objects. Proof: unfolding of the handlers; acceptance of the built lists compared with the call specification; list inductions over places and definitions.
* Theorems (Callables.lean): `C81_definition_partial`, `C81_class_partial`, `C81_refuted`, `C81_async_ignored`.

### C82 Declared callable types mean what they say

A name that a stub declares as Callable[arguments, result] gets a signature that accepts exactly the calls this type allows and returns result.

* Status: partial. False as stated for Concatenate, which gets (*args, **kwargs); proved for lists, ... and parameter specifications.
* Model: the handlers of definitions, assignments and expressions, the choice among places, `_value_has_qualified_path` on a graph of live objects. Proof: unfolding of the handlers; acceptance of the built lists compared with the call specification; list inductions over places and definitions.
* Theorems (Callables.lean): `C82_callable_partial`, `C82_refuted`.

### C83 An alias has the signature of its target

A name that a stub defines as an alias of a function has the signature of this function.

* Status: partial. False as stated for overloaded functions and methods; proved for functions at module level with one definition.
* Model: the handlers of definitions, assignments and expressions, the choice among places, `_value_has_qualified_path` on a graph of live objects. Proof: unfolding of the handlers; acceptance of the built lists compared with the call specification; list inductions over places and definitions.
* Theorems (Callables.lean): `C83_alias_partial`, `C83_refuted`, `C83_refuted_method`.

### C84 Signatures come from the object's own definition

In a running interpreter the stub definition at some place is used for an object only if the object itself is found at a place that leads there.

* Status: partial. False as stated for objects that are not listed in the index; proved for listed ones in loaded modules.
* Model: the handlers of definitions, assignments and expressions, the choice among places, `_value_has_qualified_path` on a graph of live objects. Proof: unfolding of the handlers; acceptance of the built lists compared with the call specification; list inductions over places and definitions.
* Theorems (Callables.lean): `C84_places`, `C84_own_places_partial`, `C84_refuted`.

### C85 The next place is tried

A callable that is found in several places, one of which has definitions that give a signature, gets a signature from the stubs.

* Status: partial. False as stated: a first place without definitions ends the search; proved if the earlier places have definitions.
* Model: the handlers of definitions, assignments and expressions, the choice among places, `_value_has_qualified_path` on a graph of live objects. Proof: unfolding of the handlers; acceptance of the built lists compared with the call specification; list inductions over places and definitions.
* Theorems (Callables.lean): `C85_next_place_partial`, `C85_refuted`.

### C86 Type variables stand for their bound or constraints

A name declared by a type variable has the signature of its bound, else the signatures of its constraints as overloads, else the signature inspect reports.

* Status: partial. False as stated: a type variable with neither raises ValueError; proved with bound or constraints.
* Model: the handlers of definitions, assignments and expressions, the choice among places, `_value_has_qualified_path` on a graph of live objects. Proof: unfolding of the handlers; acceptance of the built lists compared with the call specification; list inductions over places and definitions.
* Theorems (Callables.lean): `C86_type_variable_partial`, `C86_refuted`.

### C87 Classes are recorded with their declared bases

When a stub module has been read to its end, each of its classes is recorded with the bases of its last definition, in order and complete, except those that name Generic, Protocol or NamedTuple of typing.

* Status: proved.
* Model: the visitor of class statements with `_collect_type_args` and `_is_type_var_object_path`. Proof: relations between the tables before and after, kept by every visitor; class statements by induction over the limit.
* Theorems (Classes.lean): `C87_bases`.

### C88 Type variables become type parameters

A name among the type arguments of the bases of a class becomes a type parameter of the class if and only if it means a type variable; each parameter is recorded once, in the order of first appearance.

* Status: partial. False as stated: variables that a module only passes on are overlooked; proved: what is recorded, and exactness for names whose meaning is known.
* Model: the visitor of class statements with `_collect_type_args` and `_is_type_var_object_path`. Proof: relations between the tables before and after, kept by every visitor; class statements by induction over the limit.
* Theorems (Classes.lean): `C88_parameters`, `C88_known_partial`, `C88_refuted`.

### C89 Classes known only from stubs have their declared members

The value of a class that only exists in a stub file is a new class with the recorded superclasses whose members are __module__, __annotations__ and the declared names; each function is made from its last definition, and annotations without a value are evaluated and stored.

* Status: partial. False as stated: names used by assigned members become members, and classes with nested classes raise KeyError; proved for classes of functions and annotations.
* Model: classes that only exist in stubs, of `evaluation.py`. Proof: induction over the members with what was gathered so far; every evaluation keeps cached classes, by mutual induction.
* Theorems (StubClasses.lean): `C89_members_partial`, `C89_refuted`, `C89_nested_refuted`.

### C90 A class known only from stubs is one object

However often and under whichever names a class that only exists in a stub file is evaluated, the value is the same object.

* Status: partial. False as stated: a class whose member uses an alias of the class is made twice; proved for all names of the class, and aliases evaluated later.
* Model: classes that only exist in stubs, of `evaluation.py`. Proof: induction over the members with what was gathered so far; every evaluation keeps cached classes, by mutual induction.
* Theorems (StubClasses.lean): `C90_once_partial`, `C90_alias_partial`, `C90_refuted`.

### C91 Stored syntax trees are read back unchanged

Reading the text that a syntax tree is stored as gives a tree with the same classes and fields, whichever optional fields are left out and whichever constants occur.

* Status: partial. False as stated: infinite numbers, numbers of more than 4300 digits and more than 200 nested brackets raise errors; proved for all other trees, and that these are the only ones.
* Model: `conversion.to_raw` (`ast.dump`) and `construction.from_raw` at the level of characters. Proof: printer and reader round trip by mutual structural induction over trees.
* Theorems (RawNodes.lean): `C91_roundtrip_partial`, `C91_error_partial`, `C91_refuted`, `C91_nested_refuted`.

### C92 The superclasses of a class are its declared bases

In the tables built from the stubs the superclasses of a class are, in order, what its declared bases mean: for a name the class it resolves to, for a subscripted generic class a copy of that class with the type parameters replaced by the arguments.

* Status: partial. False as stated: the bases of a generic class that is specialised before they are processed are rewritten for good; proved for classes without type parameters, and from the stub files (C92_written_partial) for bases that are names of classes of the module, of builtin classes or of what is imported by name, or dotted names of classes of imported modules.
* Model: `_process_classes_bases` and `_parse_stubs_state`. Proof: invariant of the loop over all classes: each class of `__specializations` stems from some base, and stays what it is; tables that were read have distinct classes of known modules; `C92_written_partial` follows the statements of the stub file by an invariant of the whole parser (names bound by no import or alias stay unbound, names bound by one import only mean what it says) and a relation back from the final tables.
* Theorems (Superclasses.lean, WrittenBases.lean): `C92_superclasses_partial`, `C92_means_partial`, `C92_written_partial`, `C92_refuted`.

### C93 Modules known only from stubs have their declared names

The value of a module that cannot be imported is one module object, the same from then on, with an attribute for each name its stub declares: the value of that name, which for a class is the class it is known as from then on and for a function is made from its last definition.

* Status: partial. False as stated: a name with an annotation and no value raises TypeError; proved where the evaluation succeeds.
* Model: modules that only exist in stubs, of `evaluation.py`. Proof: induction over the names; relations between caches before and after that every evaluation respects, by mutual induction.
* Theorems (StubModules.lean): `C93_attributes_partial`, `C93_refuted`.

### C94 Postponed annotations keep their meaning

The annotations of a function that only exists in a stub file are kept as texts; each such text is an expression of Python, and read as one it is the annotation written in the stub.

* Status: partial. False as stated: texts lose their quotes, ... becomes Ellipsis and operands of operators their parentheses; proved for annotations without these.
* Model: `conversion.to_str` and `_LazyEvaluator`. Proof: the text is read by a grammar with precedences of its own; by mutual structural induction over trees every text may be followed by what may follow an expression of its level.
* Theorems (Postponed.lean): `C94_reads_partial`, `C94_refuted`.

### C95 Accepted calls are accepted by a declared overload

If the stubs define the function, method or constructor that runs when a callable is called, then every call for which all_set of its signature_from_callable signature holds is accepted by one of these definitions, with the arguments of partials and the instance of a bound method added.

* Status: partial. False as stated: keywords that repeat the name of a parameter filled positionally, in the presence of **kwargs; proved for other calls and definitions without '/'.
* Model: everything from `from_callable` to `all_set`. Proof: signatures made from definitions have no parameter that is both positional and keyword, nor have their bindings, so that C06 and C18 apply without exclusions; induction over nested partials down to the definition; C27 and C62.
* Theorems (Pipeline.lean, Reading.lean, Shapes.lean): `C95_declared_partial`, `C95_from_source_partial`, `C95_session_partial`, `C95_refuted`.

### C96 Calls of a declared overload are accepted

If the stubs define the function, method or constructor that runs when a callable is called, then every call that one of these definitions accepts, and that gives no positional parameter by keyword, satisfies all_set of the signature_from_callable signature.

* Status: partial. False as stated: parameters before '/' are dropped; proved for definitions without '/'.
* Model: everything from `from_callable` to `all_set`. Proof: signatures made from definitions have no parameter that is both positional and keyword, nor have their bindings, so that C06 and C18 apply without exclusions; induction over nested partials down to the definition; C27 and C62.
* Theorems (Pipeline.lean, Reading.lean, Shapes.lean): `C96_accepted_partial`, `C96_from_source_partial`, `C96_session_partial`, `C96_refuted`.

### C97 Objects are named by the place of their definition

catalog.qualified_path_from of a function, class, method descriptor, builtin function or builtin class method is the pair of the parts of its module's name and of the names of the classes and functions around its definition (with '<locals>' after functions); different places have different paths; the only exception is AssertionError, raised exactly when the module it asks for is not a text (functions without a module aside).

* Status: proved.
* Model: `catalog.qualified_path_from` on the attributes it reads, `index.py`, `modules._to_supported_qualified_paths`, `_from_callable`. Proof: splitting of joined names; C73, C38 and C30 composed: the own place survives the filter, all places resolve to it, so that one path is left.
* Theorems (Catalog.lean): `C97_named`, `C97_distinct`, `C97_fails`, `C97_without_module`, `C97_nameless`.

### C98 Library objects are indexed at their own place

index.from_modules lists every object that is defined in one of the modules, possibly inside of classes, and can still be found there, at its own place; it lists nothing for objects without a name; if it raises AssertionError, then there is an object in one of the modules whose own module is not a text.

* Status: proved.
* Model: `catalog.qualified_path_from` on the attributes it reads, `index.py`, `modules._to_supported_qualified_paths`, `_from_callable`. Proof: splitting of joined names; C73, C38 and C30 composed: the own place survives the filter, all places resolve to it, so that one path is left.
* Theorems (Catalog.lean): `C98_own_place`, `C98_fails`, `C57_named`.

### C99 Library callables get the signature of their own stub

If a function, descriptor or builtin is found where it has been defined in a library module, the stub of this module defines it by functions, and other places at which it is found lead there in the stubs or are unknown to them, then its signature_from_callable signature is the one given by these definitions; for a class it is the one given by its own __init__.

* Status: proved. The evaluation of annotations is a parameter.
* Model: `catalog.qualified_path_from` on the attributes it reads, `index.py`, `modules._to_supported_qualified_paths`, `_from_callable`. Proof: splitting of joined names; C73, C38 and C30 composed: the own place survives the filter, all places resolve to it, so that one path is left.
* Theorems (Catalog.lean): `C99_own_stub`, `C99_own_class`.

### C100 Recorded kinds are those of the last definitions

After the stubs were read, what a name of a stub module is recorded to be in _stubs (nodes_kinds: a function, a coroutine function, a class, an assignment) is what its last definition in the branches taken makes it, and names without a definition of their own have no kind; this holds for every module that was read to its end, which every module is that is not read before its turn comes; any other module that was asked for was read to its end or its reading was broken off by an exception.

* Status: proved.
* Model: the stub parser and everything from `from_callable` to the conversion. Proof: induction over the limit: each statement changes the kinds of its module by its own definitions only; relation between tables before and after for how modules were read; then C40, C67, C71 and C99 composed.
* Theorems (Reading.lean): `C100_kinds`, `C100_nodes`, `C100_in_turn`, `C100_asked`.

### C101 Library callables get the signature written in the stub source

If a function, descriptor or builtin is found where it has been defined in a library module, the source of the module's stub (read to its end) defines it by functions only, and other places at which it is found lead there in the stubs or are unknown to them, then its signature_from_callable signature is the one given by exactly these definitions of the branches taken, in source order; for a class it is the one given by the definitions of __init__ inside of it.

* Status: proved. The evaluation of annotations is a parameter.
* Model: the stub parser and everything from `from_callable` to the conversion. Proof: induction over the limit: each statement changes the kinds of its module by its own definitions only; relation between tables before and after for how modules were read; then C40, C67, C71 and C99 composed.
* Theorems (Reading.lean): `C101_function`, `C101_class`, `C101_signature`, `C101_class_signature`.

### C102 Earlier questions do not change signatures

signature_from_callable gives the same answer for a callable whatever callables it was given before in the same process, be it that these got a signature or an exception.

* Status: partial. False as stated for annotations with aliases that use each other; proved for callables whose annotations have a meaning or use names that exist at run time, after any callables within the recursion limit, whatever entries of weak caches vanish in between.
* Model: `from_callable` with the caches of the evaluation passed on from question to question (`Model/Session.lean`). Proof: invariant of the caches that every evaluation keeps, answered or not, by mutual induction; expressions with a meaning evaluate to it in every such state; then through the conversion branch by branch.
* Theorems (Session.lean): `C102_settled_partial`, `C102_parsed_partial`, `C102_refuted`.

### C103 Signatures say what is written in the stubs

If a function, descriptor or builtin is found where it has been defined in a library module, the source of the module's stub defines it by functions only (without '/', and with a first parameter if they are methods), other places at which it is found lead there in the stubs or are unknown to them, every annotation and default written there has a meaning (names mean what they mean in the stubs, aliases their definitions, and no alias needs itself), and every name used as a decorator is known, then signature_from_callable succeeds, whatever it was asked before within the recursion limit, and gives for each definition in source order the parameters written with their names, types and defaults, and the return type written; for a class the same holds with the definitions of __init__ inside of it, the first parameter left out and Self returned, and for a class without __init__ with those of its __new__ and the return type written.

* Status: proved. The stub files assign to single names, without binary operators other than |, & and ^ in the values, and typing.ForwardRef accepts the names of aliases.
* Model: everything from the stub sources and the index to `from_callable` with caches. Proof: C101 gives the place and the definitions, C102 the independence of earlier questions, C76 the values of annotations, C25, C26 and C81 the conversion.
* Theorems (Written.lean): `C103_function`, `C103_class`, `C103_new`.

### C104 Signatures of methods say what is written in the stubs

If a method is bound to an instance (a method of a class, a builtin method such as [].append or a method wrapper such as (1).__add__), its function is found where it has been defined inside of a library class, the source of the module's stub defines it there by functions with a first parameter (without '/'), other places at which it is found lead there in the stubs or are unknown to them, every annotation and default written there has a meaning, and every name used as a decorator is known, then signature_from_callable succeeds, whatever it was asked before within the recursion limit, and gives for each definition in source order the parameters written after the first one with their names, kinds, types and defaults, and the return type written.

* Status: proved. The stub files assign to single names, without binary operators other than |, & and ^ in the values, and typing.ForwardRef accepts the names of aliases.
* Model: as for C103, and `PlainSignature.bind`, `OverloadedSignature.bind`. Proof: the answer before binding as in C103; a signature whose first parameters are positional only is bound by leaving them out.
* Theorems (BoundWritten.lean): `C104_method`.

### C105 Definitions that are only in stubs can be executed

When the evaluation of an annotation needs a function that exists in stub files only, and all names in its decorators and defaults are those of builtins or of objects that exist at run time, then the function can be evaluated (there is no NameError).

* Status: partial. False as stated for functions outside of classes that use other names than those of builtins; proved for these, and for the methods of classes.
* Model: `evaluate_qualified_path`, `evaluate_statement_node` and the collection of dependencies. Proof: the names of the dependencies are those in decorators and defaults; induction over the members with an invariant of the two namespaces; a concrete decorated function for the negation.
* Theorems (Defining.lean): `C105_class_partial`, `C105_builtins_partial`, `C105_refuted`.

### C106 Every library module is discovered

Every module that Python finds in its library directory or in lib-dynload below it, and whose name is neither that of a test nor of a __main__ module, is among the standard modules, and every standard module is a builtin module or has a file in the library; stubs of modules are known exactly if they have a stub file in the directory of stubs.

* Status: partial. False as stated for extension modules in lib-dynload and for directories that are links; proved for the modules of a library without links outside of lib-dynload.
* Model: `file_system.find_files_paths` on trees of directories (`Model/FileSystem.lean`) and `sources.py`. Proof: mutual induction over the tree for `os.walk`; names of files are split at their dots; C59 for the names of modules; a concrete `lib-dynload` for the negation.
* Theorems (FileSystem.lean): `C106_library_partial`, `C106_only`, `C106_stubs_partial`, `C106_files_partial`, `C106_once`, `C106_refuted`, `C106_files_refuted`.

### C107 Equal signatures describe the same types

If two signatures compare equal then they have the same parameters (names, kinds, which of them are optional and which have defaults), and their annotations describe the same types: the same classes and generics with the same arguments, unions and literals up to order, type variables with the same declaration.

* Status: partial. False as stated: Literal[1] equals Literal[True], and tuple equals tuple[()]; proved for annotations in which nothing has an empty list of arguments and literal values are not both numbers and booleans.
* Model: `annotated.are_equal` and the `==` of `typing` objects as in C19. Proof: strong induction over the left annotation, once for `==` and once for `are_equal`; the specification is a separate inductive relation; two concrete pairs of annotations for the negation.
* Theorems (SameTypes.lean): `C107_partial`, `C107_refuted`, `C107_refuted_tuple`.

### C108 Earlier questions never change which calls a signature accepts

Whenever signature_from_callable gives two signatures for the same callable, in one process or in two with the same stub tables, after whatever questions, they have as many overloads, with the same parameters (names, kinds and which of them are optional, in the same order); hence they accept the same arguments, complete or not, and the same arguments can be bound. Annotations and defaults may differ (C102).

* Status: proved.
* Model: `from_callable` with the caches of the evaluation passed on (`Model/Session.lean`); what Python does with objects is a parameter that never raises the private exception class. Proof: the answer is compared with the one of an evaluation that always gives `Any`: both take the same branches, function by function, and end in signatures with the same parameters but for annotations and defaults.
* Theorems (Shapes.lean): `C108_alike`, `C108_calls`.

### C109 Signatures accept exactly what definitions, as they are read, accept

If the stubs define what runs when a callable is called (by one or more definitions of a function), then the signature given for the callable, whatever was asked before, accepts exactly the calls that one of the definitions accepts once it is changed as follows: parameters before / are dropped, other positional parameters become positional-only, the first parameter is dropped for classes, and it becomes required and positional-only for methods and class methods. For functions and classes of library modules these are the definitions in the source of the module's stub.

* Status: proved.
* Model: everything from `from_callable` (with caches) to `all_set`, and from stub sources for the last two theorems. Proof: the parameters of a signature declare the formal parameters as read, one by one; acceptance depends on names, kinds and requiredness only; then as for C95, C101 and C108.
* Theorems (AsRead.lean): `C109_exact`, `C109_session`, `C109_source`, `C109_source_class`.

### C110 Exactly which declared callables get a signature

If the stubs define a function, class or method of an instance by definitions that Python's parser accepts, then signature_from_callable gives a signature for it exactly if each of the definitions can be read: no parameter before / has a default, the annotations and defaults of the other parameters and the annotation of the result (unless it is that of __init__ for a class) can be evaluated, the decorators up to the first classmethod name known objects or no objects, the module is known if there is no classmethod, and there is a parameter after / where a first parameter is replaced or dropped. What inspect reports never matters.

* Status: proved.
* Model: `_from_statement_node` and what it calls, then everything from `from_callable` on. Proof: the conversion succeeds exactly if every step does; the parameters as read are legal because those written are; binding the first parameter of a method always succeeds.
* Theorems (Readable.lean): `C110_definition`, `C110_callable`, `C110_class`, `C110_bound`.

### C111 Exactly what signatures of callables without stubs say

If neither the index of importable objects nor the stubs know the module of a function, builtin, descriptor, class or method of an instance (or it names no module), then signature_from_callable, whatever it was asked before, raises what inspect raises, and otherwise gives a signature exactly if inspect reports at most one *args and one **kwargs; it has the parameters that inspect reports with their names, kinds, annotations (Any if there is none) and defaults, and their result (Self for classes); and Python accepts exactly the calls for which all_set holds and no keyword, in the presence of **kwargs, repeats the name of a parameter filled positionally. functools.partial of such a callable gets a signature exactly if the callable does, its arguments can be completed to a call that Python accepts, and no keyword repeats, in the presence of **kwargs, the name of a parameter filled positionally.

* Status: proved.
* Model: `from_callable` with caches, `resolve_qualified_paths`, `_from_raw_signature`. Proof: nothing resolves in a module without stubs, so that the answer is that for the report of `inspect`; its conversion is legal exactly without repeated variadics; then C05, C06, C08 and C09 for all calls.
* Theorems (Foreign.lean): `C111_error`, `C111_exact`, `C111_partials`, `C24_exact`.

### C112 Exactly which partial objects of declared callables get a signature

If the stubs define a function, class or method of an instance by definitions that Python's parser accepts, then signature_from_callable gives a signature for functools.partial of it exactly if each definition can be read (C110), the arguments can be completed to a call that one of the definitions, as they are read (C109), accepts, and for no definition whose calls the arguments can be completed to a keyword repeats, in the presence of **kwargs, the name of a parameter filled positionally.

* Status: proved.
* Model: `from_callable` on partial objects, `PlainSignature.bind` and `OverloadedSignature.bind`. Proof: C110 for the callable; the overloads that expect the arguments are those that can be completed (C08), and all of them have to be bound (C05), which fails exactly for repeated names.
* Theorems (PartialRead.lean): `C112_callable`, `C112_class`, `C112_bound`.

### C113 Overlapping starts never use a mixed cache

However the starts of several processes of any versions overlap, each of them reading the cache file piece by piece or taking a file compiled from it earlier, writing it piece by piece and stopping at any point, every main process uses the tables that its own version computes.

* Status: partial. False as stated: writers of two versions overwrite parts of each other, and a reader can see the beginning of the old and the end of the new file; proved for any overlapping starts of one version, and for starts of any versions that do not overlap, with compiled files of any age.
* Model: processes with their steps as a transition relation over the shared files (`Model/Overlap.lean`). Proof: invariants of all steps: a file written by processes of one version has at each position the right character or a null character, which the tokenizer rejects; without overlaps the files are beginnings of saved texts; concrete interleavings for the negation.
* Theorems (Overlap.lean): `C113_same_partial`, `C113_uses`, `C113_kept`, `C113_alone_partial`, `C113_refuted`, `C113_refuted_upgrade`.

### C114 Tables do not depend on hash seeds

What is read from stub files does not depend on the order in which Python iterates over sets of names: in whatever orders the names of a test or of the members of a specialised class are visited, the tables of definitions, star imports, superclasses, nodes and kinds are equal, and every name refers to the same object.

* Status: partial. False as stated: a star-imported module whose reading broke off is skipped when the first name of a test is looked up and searched for the second; proved unless a test of several names is in a module with star imports.
* Model: reading of stub files and processing of bases with the order of sets as a parameter (`Model/Stubs.lean`, `Model/Specialization.lean`). Proof: two runs with different orders are compared step by step: reading them ends in equal tables, because looking up names in modules that are fully read changes nothing; specialisations end in tables that differ in the order of references only; concrete star imports for the negation.
* Theorems (Orders.lean): `C114_order_partial`, `C114_refuted`.

### C115 Members of generic bases are found with arguments

A member that a class does not define itself, but the generic class G of one of its bases G[A, ...] does, and no earlier base has, is found in the stub tables, and its definitions are those in G with the arguments in the place of the type parameters; the signature of a function that has its place there is given by them.

* Status: partial. False as stated: bases that are written alike in two modules but mean different classes share one specialisation, so that the members of the wrong class are found; proved for classes without type parameters of their own and bases whose identifier is used for one class with one list of arguments only.
* Model: reading of stub files, `_process_classes_bases`, `resolve_object_path`, index of the library and lookup of signatures (`Model/Stubs.lean`, `Model/Specialization.lean`, `Model/Scoping.lean`, `Model/Index.lean`, `Model/Signatures.lean`). Proof: the superclasses recorded for the class are those of its bases in order (as for C92); the invariant of the loop over all classes tells from which base, own or arising from a specialisation (`MayBeBase`), each specialisation stems; the resolution of the member tries the superclasses in order; with C98 and C99 this carries over to signatures.
* Theorems (Inherited.lean, InheritedSignature.lean): `C115_found_partial`, `C115_signature_partial`, `C115_written_partial`, `C115_refuted`.

### C116 Members are inherited in the method resolution order

If the ancestors of a class are known to the stub tables, then resolving a member of the class finds the member of the first class in Python's method resolution order (C3 linearisation) that defines it, and nothing if no ancestor does.

* Status: partial. False as stated: bases are searched depth first, and builtins.object with each of them, so that members of object hide those of the second base, and members of a common ancestor those of the class in between; proved for members to which all ways lead through one class (such as members defined once), for hierarchies in which no class but object is inherited in two ways with members that object does not have, without multiple inheritance for all members, and for members that no ancestor has; the bases may be those written in the stub files (C116_through_written_partial, C116_branching_written_partial); C116_order_partial: so in every order of the modules, if in some order they use only what comes before.
* Model: `resolve_object_path` (`Model/Scoping.lean`) on arbitrary tables; the method resolution order is specified by its own relation (`Spec/Linear.lean`: merge of linearisations, `object` as implicit base). Proof: induction on the derivation of the order: bases that are known classes are asked in turn whatever modules were visited; the order of an ancestor is a sublist of the order, without repetitions; where classes are inherited in one way only, the merge is the concatenation; `written_hierarchy` (`Props/WrittenBases.lean`) gets the hierarchy from stub files with C92.
* Theorems (Linear.lean, WrittenBases.lean, WrittenOrder.lean): `C116_nothing`, `C116_through_partial`, `C116_branching_partial`, `C116_through_written_partial`, `C116_order_partial`, `C116_branching_written_partial`, `C116_refuted`, `C116_refuted_diamond`.

### C117 Undeclared methods have the inherited signature

from_callable of a method that is found where it has been defined, but that the stub of its class does not declare, gives the signature written for the method in the first class of Python's method resolution order whose stub declares it.

* Status: partial. False as stated for the same reason as C116: of a class that is inherited in two ways the declaration is taken although a class before it in the order has one (C117_refuted); proved in general if all ways to other classes with the method go through the one that declares it, and for hierarchies in which no class but object is inherited in two ways; from the stub files for classes with plain bases (C117_sources_partial), and bound to instances (C117_bound_partial).
* Model: the index of the library (`Model/Catalog.lean`), its filtering by the stub tables, `resolve_object_path` and `from_callable` (`Model/Signatures.lean`). Proof: the place of the method is listed in the index (C98), the resolution of it is the subject of C116, and `fromCallable_at` (`Lemmas/InheritedSignature.lean`) carries it through `from_callable`; that the filtering did not exceed the recursion limit follows from it having ended; `C117_written_partial` (and `C115_written_partial` for generic bases) carry it through sessions with the argument of C103; `C117_sources_partial` and `C117_bound_partial` take hierarchy and definitions from the stub files (C92, C100); the refutation computes both signatures in a diamond.
* Theorems (InheritedSignature.lean, WrittenInherited.lean): `C117_through_partial`, `C117_branching_partial`, `C117_written_partial`, `C117_sources_partial`, `C117_bound_partial`, `C117_refuted`.

### C118 Tables do not depend on the order of modules

What is read from stub files does not depend on the order in which the modules are visited, which is the order of a set of tuples of strings: in whatever order they are read, the tables say the same of every module, and every class has the same superclasses.

* Status: partial. False as stated: if two modules need each other, by a star import and by the import of a type variable, a class may lose its inherited members or reading may end in KeyError, depending on which module is visited first; proved for all orders and all recursion limits if there is an order in which reading a module never opens a module that comes later (superclasses for classes without type parameters of their own); such is an order in which modules star-import only modules before them, and import what begins the arguments of bases only from modules before them (C118_sources_partial, from the stub files); then the superclasses of a top level class are the classes its bases are written to be, in every order (C118_written_partial).
* Model: reading of stub files and processing of bases for an arbitrary list of modules (`Model/Stubs.lean`, `Model/Specialization.lean`). Proof: a reading in any order is compared with the one in turn, step by step: whenever the latter looks at a module that was read before, the former has read it as well or reads it now, with the same outcome, by induction over the modules in turn (`Lemmas/ModuleOrder.lean`); modules that were visited are left alone (C39), and processing bases changes superclasses and `__specializations` only; C92 for superclasses; two pairs of modules that need each other for the negation; files that use only what comes before open nothing else, statement by statement (`Lemmas/ReadingOrder.lean`).
* Theorems (ModuleOrder.lean, ReadingOrder.lean, WrittenOrder.lean): `C118_read_partial`, `C118_tables_partial`, `C118_superclasses_partial`, `C118_sources_partial`, `C118_sources_tables_partial`, `C118_written_partial`, `C118_refuted`, `C118_refuted_fails`.

### C119 Answers do not depend on the order of modules

What signature_from_callable answers, whatever it was asked before, does not depend on the order in which the stub modules were read, which is the order of a set of tuples of strings.

* Status: partial. False as stated: of two modules that need each other, one order gives a signature of an inherited method and the other one none. Proved: equal tables give equal answers; and for stub files that can be read in an order in which no module needs a later one, and whose bases are names that mean something whatever superclasses are recorded, the answers are the same for every order of the modules (C119_sources_partial has the condition on the order from the stub files, C119_written_partial the one on the bases as well). Missing: bases with arguments.
* Model: reading of stub files and processing of bases for an arbitrary list of modules (`Model/Stubs.lean`, `Model/Specialization.lean`), sessions with evaluation (`Model/Session.lean`). Proof: sessions only look tables up, function by function (`Lemmas/SessionTables.lean`); by C118 the states before the bases are processed look alike, and if each base means something whatever superclasses are recorded, processing only adds the meanings to the superclasses; names of classes of the module, of builtin classes and of what is imported mean the same in all tables that have the definitions and references read from the files (`Lemmas/WrittenOrder.lean`).
* Theorems (ReadingOrder.lean, SessionTables.lean, WrittenOrder.lean): `C119_tables_partial`, `C119_plain_partial`, `C119_sources_partial`, `C119_written_partial`, `C119_refuted`.

## Axioms

* none: `C113_uses`, `C44_absolute`, `C44_refuted`.
* propext: `C02_parameter_constructors`, `C05_refuted_positional_only`, `C105_refuted`, `C10_refuted_positional_only`, `C16_result`, `C17_combine`, `C24_refuted_collision`, `C24_refuted_marker`, `C26_refuted_empty`, `C27_refuted_static`, `C30_refuted_namesake`, `C36_refuted`, `C37_refuted_object_name`, `C46_attribute_of_call`, `C47_refuted`, `C48_refuted`, `C50_parent`, `C54_modules`, `C54_refuted`, `C55_exclusive_partial`, `C55_refuted`, `C55_shared_lock`, `C56_blocked_iff`, `C56_broken`, `C56_outcome_partial`, `C56_refuted`, `C61_refuted_legal_import`, `C62_refuted_static`, `C75_refuted`, `C76_refuted`, `C77_refuted`, `C78_refuted`, `C81_async_ignored`, `C83_refuted_method`, `C89_nested_refuted`, `C89_refuted`, `C90_refuted`, `C92_means_partial`, `C93_refuted`.
* Quot.sound, propext: `C02_constructible_iff_valid`, `C05_refuted`, `C06_refuted`, `C07_allSet_implies_expects`, `C07_allSet_implies_expects_plain`, `C09_refuted`, `C105_builtins_partial`, `C105_class_partial`, `C10_refuted`, `C113_kept`, `C113_refuted`, `C113_refuted_upgrade`, `C116_nothing`, `C13_overloaded_bind_refuted`, `C15_values_irrelevant`, `C16_refuted`, `C17_combine_groups`, `C18_refuted`, `C21_pickle_roundtrip`, `C24_refuted`, `C26_refuted`, `C27_refuted`, `C30_constructor_partial`, `C30_own_constructor`, `C32_resolved_is_defined`, `C33_resolve_idempotent`, `C34_builtins_last`, `C34_class_first`, `C34_module_second`, `C34_reference_fourth`, `C34_star_third`, `C37_inherited_partial`, `C37_no_star_partial`, `C37_object_partial`, `C37_refuted`, `C44_relative_partial`, `C46_substitution_partial`, `C48_constructor_partial`, `C49_each_once`, `C49_ends`, `C49_shallow_first`, `C50_chain`, `C50_chain_injective`, `C50_to_path`, `C53_refuted`, `C61_only_not_found_partial`, `C61_refuted`, `C62_refuted`, `C74_refuted`, `C80_postponed`, `C83_refuted`, `C86_refuted`.
* Classical.choice, Quot.sound, propext: `C01_plainSignature_accepts_iff`, `C03_bind_legal`, `C03_overloaded_bind_legal`, `C04_bind_nothing`, `C04_bind_nothing_plain`, `C05_bind_iff`, `C05_collision_always_raises`, `C05_expects_iff_bind_partial`, `C06_accepts_iff`, `C06_accepts_implies_allSet`, `C06_allSet_iff_accepts_partial`, `C06_overloaded_iff`, `C06_overloaded_partial`, `C08_completable_iff`, `C08_expects_iff_completable`, `C08_overloaded`, `C09_bind_partial_application_no_var_keyword`, `C09_bind_partial_application_partial`, `C09_combined_iff`, `C100_asked`, `C100_in_turn`, `C100_kinds`, `C100_nodes`, `C101_class`, `C101_class_signature`, `C101_function`, `C101_signature`, `C102_parsed_partial`, `C102_refuted`, `C102_settled_partial`, `C103_class`, `C103_function`, `C103_new`, `C104_method`, `C106_files_partial`, `C106_files_refuted`, `C106_library_partial`, `C106_once`, `C106_only`, `C106_refuted`, `C106_stubs_partial`, `C107_partial`, `C107_refuted`, `C107_refuted_tuple`, `C108_alike`, `C108_calls`, `C109_exact`, `C109_session`, `C109_source`, `C109_source_class`, `C10_at_once_iff`, `C10_bind_twice_partial`, `C110_bound`, `C110_callable`, `C110_class`, `C110_definition`, `C111_error`, `C111_exact`, `C111_partials`, `C112_bound`, `C112_callable`, `C112_class`, `C113_alone_partial`, `C113_same_partial`, `C114_order_partial`, `C114_refuted`, `C115_found_partial`, `C115_refuted`, `C115_signature_partial`, `C115_written_partial`, `C116_branching_partial`, `C116_branching_written_partial`, `C116_order_partial`, `C116_refuted`, `C116_refuted_diamond`, `C116_through_partial`, `C116_through_written_partial`, `C117_bound_partial`, `C117_branching_partial`, `C117_refuted`, `C117_sources_partial`, `C117_through_partial`, `C117_written_partial`, `C118_read_partial`, `C118_refuted`, `C118_refuted_fails`, `C118_sources_partial`, `C118_sources_tables_partial`, `C118_superclasses_partial`, `C118_tables_partial`, `C118_written_partial`, `C119_plain_partial`, `C119_refuted`, `C119_sources_partial`, `C119_tables_partial`, `C119_written_partial`, `C11_bound_keyword_partial`, `C11_refuted`, `C12_bind_frame`, `C13_bind_downward_partial`, `C13_bind_downward_plain`, `C13_expects_downward`, `C13_expects_downward_plain`, `C14_keyword_order`, `C15_bind_values_irrelevant`, `C16_bind_iff`, `C16_overloaded_bind_partial`, `C18_combined_iff`, `C18_complete`, `C18_overloaded_partial_application_partial`, `C19_equivalence_partial`, `C19_refl_partial`, `C19_refl_refuted`, `C19_refuted`, `C19_symm_refuted`, `C19_symm_refuted_nested`, `C20_equal_hash_partial`, `C20_refuted`, `C22_str_readable`, `C22_str_readable_runtime`, `C23_overloaded_text`, `C23_plain_text`, `C24_exact`, `C24_inspect_fallback_partial`, `C25_defaults`, `C26_legal_partial`, `C27_never_over_accepts_partial`, `C28_partial_is_bind_partial`, `C28_refuted`, `C28_refuted_rebinding`, `C28_session_partial`, `C29_bound`, `C29_class`, `C29_function`, `C29_source`, `C30_declared_class`, `C30_locations`, `C30_refuted`, `C31_fallback_partial`, `C31_fallback_session_partial`, `C31_not_found_never_escapes`, `C31_refuted`, `C31_refuted_kind`, `C31_refuted_module`, `C31_session`, `C31_undeclared_partial`, `C34_reference_decides_partial`, `C34_refuted`, `C35_star_imports`, `C36_terminates_partial`, `C38_index_filter`, `C39_others`, `C39_read_once`, `C39_revisit`, `C40_parsed`, `C40_recorded_defined`, `C41_branch_partial`, `C41_refuted`, `C41_untaken_irrelevant`, `C42_from`, `C42_import`, `C42_resolve`, `C43_module_alias_partial`, `C43_refuted`, `C45_collected_partial`, `C45_refuted`, `C46_members_partial`, `C46_refuted`, `C47_modules_refuted`, `C47_plain_partial`, `C47_words_partial`, `C48_recorded`, `C50_join_split`, `C50_refuted`, `C50_split_join_partial`, `C51_limits`, `C51_refuted`, `C51_roundtrip_partial`, `C52_cut`, `C52_full`, `C53_child_partial`, `C53_main_partial`, `C53_settled`, `C54_injective_partial`, `C55_never_stuck`, `C57_named`, `C57_sound`, `C57_terminates`, `C58_none_below`, `C58_platform`, `C58_supported`, `C59_module`, `C59_package`, `C59_package_refuted`, `C59_package_source`, `C59_refuted`, `C59_stdlib`, `C59_stub`, `C59_stub_used`, `C59_stubs_distinct_partial`, `C60_canonical`, `C62_positional_calls_partial`, `C63_legal`, `C63_session`, `C64_class_partial`, `C64_instance_partial`, `C64_refuted`, `C65_refuted`, `C65_terminates_partial`, `C66_direct_partial`, `C66_refuted`, `C67_complete_partial`, `C67_nothing_else`, `C67_refuted`, `C68_limit_irrelevant`, `C69_refuted`, `C69_witness`, `C70_fresh_partial`, `C70_refuted`, `C71_modules_kept`, `C72_list_argument`, `C72_nested_class`, `C72_plain_partial`, `C72_processable_partial`, `C72_read_partial`, `C72_refuted`, `C72_unknown_argument`, `C73_complete`, `C74_equal_partial`, `C75_attributes`, `C75_lenient_partial`, `C75_value_partial`, `C76_meaning_partial`, `C76_parsed_partial`, `C76_whatever_partial`, `C77_available_partial`, `C78_functions_partial`, `C79_refuted`, `C79_terminates_partial`, `C81_class_partial`, `C81_definition_partial`, `C81_refuted`, `C82_callable_partial`, `C82_refuted`, `C83_alias_partial`, `C84_own_places_partial`, `C84_places`, `C84_refuted`, `C85_next_place_partial`, `C85_refuted`, `C86_type_variable_partial`, `C87_bases`, `C88_known_partial`, `C88_parameters`, `C88_refuted`, `C89_members_partial`, `C90_alias_partial`, `C90_once_partial`, `C91_error_partial`, `C91_nested_refuted`, `C91_refuted`, `C91_roundtrip_partial`, `C92_refuted`, `C92_superclasses_partial`, `C92_written_partial`, `C93_attributes_partial`, `C94_reads_partial`, `C94_refuted`, `C95_declared_partial`, `C95_from_source_partial`, `C95_refuted`, `C95_session_partial`, `C96_accepted_partial`, `C96_from_source_partial`, `C96_refuted`, `C96_session_partial`, `C97_distinct`, `C97_fails`, `C97_named`, `C97_nameless`, `C97_without_module`, `C98_fails`, `C98_own_place`, `C99_own_class`, `C99_own_stub`.

## Code

Functions of `/repo/paradigm` and the model definitions whose comments cite their lines ("-": not
modelled, see above; several lines of one name are overloads or registered implementations).

| lines | function | model |
|---|---|---|
| `_core/annotated.py:17-21` | `are_equal` | `Objects.Atom`, `Objects.Obj.areEqual` |
| `_core/annotated.py:24-40` | `_` | `Objects.Obj.areEqual`, `Objects.Origin`, `Objects.originOrSelf` |
| `_core/annotated.py:43-47` | `_` | `Objects.Obj.areEqual` |
| `_core/annotated.py:50-56` | `_` | `Objects.Obj.areEqual` |
| `_core/annotated.py:59-62` | `_` | `Objects.Obj.areEqual` |
| `_core/annotated.py:66-74` | `_` | `Objects.Obj.areEqual` |
| `_core/annotated.py:79-87` | `_` | `Objects.Obj.areEqual` |
| `_core/annotated.py:90-93` | `_` | `Objects.Obj.areEqual` |
| `_core/annotated.py:96-109` | `_` | `Objects.Obj.areEqual` |
| `_core/annotated.py:112-117` | `_` | `Objects.Obj.areEqual` |
| `_core/annotated.py:124-126` | `to_repr` | `Text.toRepr` |
| `_core/annotated.py:129-131` | `_` | `Text.toRepr` |
| `_core/annotated.py:134-138` | `_` | `Text.toRepr`, `Text.tupleRepr` |
| `_core/annotated.py:141-150` | `_` | `Text.clsRepr`, `Text.toRepr` |
| `_core/annotated.py:153-171` | `_` | `Text.aliasRepr`, `Text.isNoneType`, `Text.subscripted`, `Text.toRepr` |
| `_core/annotated.py:174-184` | `_` | `Text.toRepr`, `Text.typeVarRepr` |
| `_core/arboreal/construction.py:12-13` | `from_node` | `Stubs.StubFiles` |
| `_core/arboreal/construction.py:16-21` | `from_raw` | `RawNodes.fromRaw` |
| `_core/arboreal/construction.py:24-25` | `from_source_path` | `Stubs.StubFiles` |
| `_core/arboreal/conversion.py:12-14` | `to_names` | `Specialization.targetNames`, `Specialization.toNames` |
| `_core/arboreal/conversion.py:17-23` | `_` | `Specialization.toNames` |
| `_core/arboreal/conversion.py:26-28` | `_` | `Specialization.toNames` |
| `_core/arboreal/conversion.py:31-34` | `_` | `Specialization.toNames` |
| `_core/arboreal/conversion.py:37-40` | `_` | `Evaluation.targetName`, `Specialization.targetNames`, `Specialization.toNames` |
| `_core/arboreal/conversion.py:43-45` | `to_identifier` | `Specialization.toIdentifier` |
| `_core/arboreal/conversion.py:48-53` | `_` | `Specialization.toIdentifier` |
| `_core/arboreal/conversion.py:56-58` | `_` | `Specialization.toIdentifier` |
| `_core/arboreal/conversion.py:61-64` | `_` | `Specialization.toIdentifier` |
| `_core/arboreal/conversion.py:67-69` | `_` | `Specialization.opIdentifier`, `Specialization.toIdentifier` |
| `_core/arboreal/conversion.py:72-74` | `_` | `Specialization.opIdentifier`, `Specialization.toIdentifier` |
| `_core/arboreal/conversion.py:77-79` | `_` | `Specialization.opIdentifier`, `Specialization.toIdentifier` |
| `_core/arboreal/conversion.py:82-86` | `_` | `Specialization.toIdentifier` |
| `_core/arboreal/conversion.py:89-92` | `_` | `Specialization.toIdentifier`, `Specialization.toIdentifiers` |
| `_core/arboreal/conversion.py:95-98` | `_` | `Specialization.toIdentifier` |
| `_core/arboreal/conversion.py:101-104` | `_` | `Specialization.toIdentifier` |
| `_core/arboreal/conversion.py:108-110` | `_` | - |
| `_core/arboreal/conversion.py:113-115` | `to_raw` | `RawNodes.toRaw` |
| `_core/arboreal/conversion.py:118-120` | `to_str` | `Evaluation.toStr` |
| `_core/arboreal/conversion.py:123-125` | `_` | `Evaluation.toStr` |
| `_core/arboreal/conversion.py:128-130` | `_` | `Evaluation.operatorText`, `Evaluation.toStr` |
| `_core/arboreal/conversion.py:133-135` | `_` | `Evaluation.operatorText`, `Evaluation.toStr` |
| `_core/arboreal/conversion.py:138-140` | `_` | `Evaluation.operatorText`, `Evaluation.toStr` |
| `_core/arboreal/conversion.py:143-145` | `_` | `Evaluation.toStr` |
| `_core/arboreal/conversion.py:148-150` | `_` | `Evaluation.toStr` |
| `_core/arboreal/conversion.py:153-155` | `_` | `Evaluation.toStr` |
| `_core/arboreal/conversion.py:158-160` | `_` | `Evaluation.toStr` |
| `_core/arboreal/conversion.py:163-165` | `_` | `Evaluation.toStr` |
| `_core/arboreal/conversion.py:168-171` | `_` | `Evaluation.toStr` |
| `_core/arboreal/conversion.py:174-180` | `_` | `Evaluation.toStr`, `Evaluation.tupleText` |
| `_core/arboreal/conversion.py:183-187` | `_` | `Evaluation.toStr` |
| `_core/arboreal/conversion.py:191-196` | `_` | `Evaluation.toStr` |
| `_core/arboreal/conversion.py:200-202` | `_` | `Evaluation.toStr` |
| `_core/arboreal/conversion.py:204-208` | `_` | `Evaluation.toStr` |
| `_core/arboreal/conversion.py:211-213` | `to_path` | `Syntax.toPath` |
| `_core/arboreal/conversion.py:216-218` | `_` | `Syntax.toPath` |
| `_core/arboreal/conversion.py:221-223` | `_` | `Syntax.toPath` |
| `_core/arboreal/conversion.py:226-228` | `to_maybe_path` | `Syntax.toMaybePath` |
| `_core/arboreal/conversion.py:231-233` | `_` | `Syntax.toMaybePath` |
| `_core/arboreal/conversion.py:236-241` | `_` | `Syntax.toMaybePath` |
| `_core/arboreal/evaluation.py:32-37` | `evaluate_expression_node` | `Evaluation.evalExpr` |
| `_core/arboreal/evaluation.py:40-45` | `evaluate_statement_node` | `Evaluation.evalStmt` |
| `_core/arboreal/evaluation.py:48-52` | `evaluate_operator_node` | `Evaluation.binaryOperator`, `Evaluation.unaryOperator` |
| `_core/arboreal/evaluation.py:55-57` | `_` | `Evaluation.unaryOperator` |
| `_core/arboreal/evaluation.py:60-62` | `_` | `Evaluation.unaryOperator` |
| `_core/arboreal/evaluation.py:65-73` | `_` | `Evaluation.evalExpr` |
| `_core/arboreal/evaluation.py:79-82` | `_all_not_none` | `Evaluation.evalExpr` |
| `_core/arboreal/evaluation.py:85-99` | `_` | `Evaluation.evalEntries`, `Evaluation.evalExpr` |
| `_core/arboreal/evaluation.py:102-104` | `_` | `Evaluation.binaryOperator` |
| `_core/arboreal/evaluation.py:107-109` | `_` | `Evaluation.binaryOperator` |
| `_core/arboreal/evaluation.py:112-114` | `_` | `Evaluation.binaryOperator` |
| `_core/arboreal/evaluation.py:117-132` | `_` | `Evaluation.evalExpr`, `Evaluation.kwargsOf` |
| `_core/arboreal/evaluation.py:136-142` | `_LazyEvaluator.visit_AsyncFunctionDef` | `Evaluation.lazyExpr`, `Evaluation.lazyFunction` |
| `_core/arboreal/evaluation.py:144-148` | `_LazyEvaluator.visit_FunctionDef` | `Evaluation.lazyExpr`, `Evaluation.lazyFunction` |
| `_core/arboreal/evaluation.py:150-155` | `_LazyEvaluator.visit_arg` | `Evaluation.lazyArg`, `Evaluation.lazyExpr` |
| `_core/arboreal/evaluation.py:163-179` | `_` | `Evaluation.evalStmt` |
| `_core/arboreal/evaluation.py:182-187` | `_` | `Evaluation.evalExpr` |
| `_core/arboreal/evaluation.py:190-198` | `_` | `Evaluation.evalExpr` |
| `_core/arboreal/evaluation.py:201-209` | `_` | `Evaluation.evalExpr` |
| `_core/arboreal/evaluation.py:212-242` | `_` | `Evaluation.EvalState`, `Evaluation.cachedTarget`, `Evaluation.evalAssign`, `Evaluation.evalStmt`, `Evaluation.initialEval` |
| `_core/arboreal/evaluation.py:245-258` | `_` | `Evaluation.evalBinary`, `Evaluation.evalExpr` |
| `_core/arboreal/evaluation.py:261-272` | `_` | `Evaluation.evalExpr` |
| `_core/arboreal/evaluation.py:275-292` | `_` | `Evaluation.evalExpr` |
| `_core/arboreal/evaluation.py:295-430` | `evaluate_qualified_path` | `Evaluation.Stmt.dependencies`, `Evaluation.bareAnnotation`, `Evaluation.evalAnnotations`, `Evaluation.evalClass`, `Evaluation.evalDefinitions`, `Evaluation.evalDependencies`, `Evaluation.evalMembers`, `Evaluation.evalNames`, `Evaluation.evalNodes`, `Evaluation.evalPath`, `Evaluation.evalStub`, `Evaluation.initialEval`, `Evaluation.scopeAt`, `Session.Evaluator.after` |
| `_core/arboreal/evaluation.py:440-446` | `_` | trusted |
| `_core/arboreal/evaluation.py:449-467` | `_` | trusted |
| `_core/arboreal/evaluation.py:469-482` | `_` | `Evaluation.evalExpr`, `Evaluation.evalItem` |
| `_core/arboreal/execution.py:8-14` | `execute_statement` | `Stubs.StubFiles` |
| `_core/arboreal/execution.py:17-24` | `_execute_tree` | `Stubs.StubFiles` |
| `_core/arboreal/kind.py:12-13` | `NodeKind.__repr__` | - |
| `_core/arboreal/utils.py:12-17` | `recursively_iterate_children` | `Stubs.Expr.descendants`, `Stubs.iterateQueue` |
| `_core/arboreal/utils.py:20-37` | `to_parent_module_path` | `Stubs.toParentModulePath` |
| `_core/arboreal/utils.py:41-43` | `subscript_to_item` | - |
| `_core/arboreal/utils.py:45-46` | `subscript_to_item` | - |
| `_core/arboreal/utils.py:49-51` | `is_dependency_name` | `Stubs.Expr.dependencyName` |
| `_core/caching.py:16-22` | `load` | `Caching.load` |
| `_core/caching.py:25-38` | `save` | `Caching.save`, `Caching.saveText` |
| `_core/catalog.py:13-15` | `path_from_string` | `Catalog.pathFromAttr`, `Stubs.pathFromString` |
| `_core/catalog.py:18-19` | `path_to_parent` | `Sources.pathToParent` |
| `_core/catalog.py:22-23` | `path_to_string` | `Sources.pathToString` |
| `_core/catalog.py:26-28` | `qualified_path_from` | `Catalog.qualifiedPathFrom`, `Index.World.qualified` |
| `_core/catalog.py:31-49` | `_` | `Catalog.qualifiedPathFrom`, `Index.World.qualified` |
| `_core/catalog.py:52-57` | `_` | `Catalog.qualifiedPathFrom`, `Index.World.qualified` |
| `_core/catalog.py:60-74` | `_` | `Catalog.qualifiedPathFrom`, `Index.World.qualified` |
| `_core/catalog.py:77-82` | `_` | `Catalog.qualifiedPathFrom`, `Index.World.qualified` |
| `_core/catalog.py:85-88` | `_` | `Catalog.qualifiedPathFrom`, `Index.World.qualified` |
| `_core/catalog.py:91-92` | `is_attribute` | `Sources.isAttribute` |
| `_core/catalog.py:95-98` | `module_path_from_module` | `Catalog.moduleName`, `Scoping.builtinsPath` |
| `_core/catalog.py:101-103` | `object_path_from_callable` | `Catalog.objectPathFromCallable` |
| `_core/discovery.py:10-18` | `_recursively_update_modules_paths` | `Sources.updateRecursively` |
| `_core/execution.py:9-10` | `is_main_process` | - |
| `_core/execution.py:13-42` | `call_in_process` | `Execution.CallStep`, `Execution.callInProcess` |
| `_core/execution.py:45-55` | `_put_result_in_queue` | `Execution.putResultInQueue` |
| `_core/file_system.py:14-20` | `find_files_paths` | `FileSystem.findFilesPaths` |
| `_core/index.py:14-19` | `from_modules` | `Index.indexModules` |
| `_core/index.py:22-55` | `_index_module_or_type` | `Index.addLocation`, `Index.indexEntry`, `Index.indexNamespace` |
| `_core/index.py:58-73` | `_index_module_path` | `Index.indexModule` |
| `_core/models.py:34-35` | `ParameterKind.__repr__` | - |
| `_core/models.py:37-38` | `ParameterKind.__str__` | - |
| `_core/models.py:42-45` | `BaseParameter.annotation` | - |
| `_core/models.py:47-50` | `BaseParameter.kind` | - |
| `_core/models.py:52-55` | `BaseParameter.name` | - |
| `_core/models.py:67-69` | `RequiredParameter.annotation` | `Models.Param`, `Models.annotation` |
| `_core/models.py:71-73` | `RequiredParameter.kind` | `Models.Param`, `Models.kind` |
| `_core/models.py:75-77` | `RequiredParameter.name` | `Models.Param`, `Models.name` |
| `_core/models.py:85-103` | `RequiredParameter.__new__` | `Models.Param`, `Models.RequiredParameter.new` |
| `_core/models.py:105-107` | `RequiredParameter.__eq__` | `Models.Param` |
| `_core/models.py:109-111` | `RequiredParameter.__eq__` | `Models.Param` |
| `_core/models.py:113-119` | `RequiredParameter.__eq__` | `Models.Param`, `Models.Param.eq` |
| `_core/models.py:121-124` | `RequiredParameter.__getnewargs_ex__` | `Models.NewArgs`, `Models.Param`, `Models.Param.newArgs` |
| `_core/models.py:126-127` | `RequiredParameter.__hash__` | `Hashing.param`, `Models.Param` |
| `_core/models.py:129-134` | `RequiredParameter.__repr__` | `Models.Param`, `Text.Param.repr` |
| `_core/models.py:136-137` | `RequiredParameter.__str__` | `Models.Param`, `Text.Param.str` |
| `_core/models.py:142-144` | `OptionalParameter.annotation` | `Models.Param`, `Models.annotation` |
| `_core/models.py:146-148` | `OptionalParameter.default` | `Models.Param` |
| `_core/models.py:150-152` | `OptionalParameter.has_default` | `Models.Param` |
| `_core/models.py:154-156` | `OptionalParameter.kind` | `Models.Param`, `Models.kind` |
| `_core/models.py:158-160` | `OptionalParameter.name` | `Models.Param`, `Models.name` |
| `_core/models.py:170-189` | `OptionalParameter.__new__` | `Models.Obj.isNoDefault`, `Models.OptionalParameter.new`, `Models.Param` |
| `_core/models.py:191-193` | `OptionalParameter.__eq__` | `Models.Param` |
| `_core/models.py:195-197` | `OptionalParameter.__eq__` | `Models.Param` |
| `_core/models.py:199-208` | `OptionalParameter.__eq__` | `Models.Param`, `Models.Param.eq` |
| `_core/models.py:210-216` | `OptionalParameter.__getnewargs_ex__` | `Models.NewArgs`, `Models.Param`, `Models.Param.newArgs` |
| `_core/models.py:218-221` | `OptionalParameter.__hash__` | `Hashing.param`, `Models.Param` |
| `_core/models.py:223-231` | `OptionalParameter.__repr__` | `Models.Param`, `Text.Param.repr` |
| `_core/models.py:233-243` | `OptionalParameter.__str__` | `Models.Param`, `Text.Param.str` |
| `_core/models.py:249-255` | `to_parameters_by_kind` | `Models.byKind` |
| `_core/models.py:258-261` | `to_parameters_by_name` | `Models.byName` |
| `_core/models.py:264-268` | `all_parameters_are_optional` | `Models.allOptional` |
| `_core/models.py:278-283` | `BaseSignature.all_set` | - |
| `_core/models.py:285-287` | `BaseSignature.expects` | - |
| `_core/models.py:289-291` | `BaseSignature.bind` | - |
| `_core/models.py:299-301` | `PlainSignature.parameters` | `Models.PlainSig` |
| `_core/models.py:303-305` | `PlainSignature.returns` | `Models.PlainSig` |
| `_core/models.py:307-342` | `PlainSignature.all_set` | `Models.allSet` |
| `_core/models.py:344-367` | `PlainSignature.expects` | `Models.expects` |
| `_core/models.py:369-387` | `PlainSignature.bind` | `Models.PlainSig.bind`, `Models.bind` |
| `_core/models.py:394-437` | `PlainSignature.__new__` | `Models.new`, `Models.validate`, `Models.validateRest` |
| `_core/models.py:439-441` | `PlainSignature.__eq__` | - |
| `_core/models.py:443-445` | `PlainSignature.__eq__` | - |
| `_core/models.py:447-452` | `PlainSignature.__eq__` | `Models.PlainSig.eq`, `Models.Sig.eq` |
| `_core/models.py:454-457` | `PlainSignature.__getnewargs_ex__` | `Models.PlainSig.roundTrip`, `Models.Sig.roundTrip` |
| `_core/models.py:459-460` | `PlainSignature.__hash__` | `Hashing.plain`, `Hashing.sig` |
| `_core/models.py:462-467` | `PlainSignature.__repr__` | `Text.PlainSig.repr`, `Text.Sig.repr` |
| `_core/models.py:469-490` | `PlainSignature.__str__` | `Text.PlainSig.str`, `Text.PlainSig.strParts`, `Text.Sig.str` |
| `_core/models.py:495-497` | `OverloadedSignature.signatures` | `Models.Sig` |
| `_core/models.py:499-501` | `OverloadedSignature.all_set` | `Models.allSet` |
| `_core/models.py:503-505` | `OverloadedSignature.expects` | `Models.expects` |
| `_core/models.py:507-513` | `OverloadedSignature.bind` | `Models.bind` |
| `_core/models.py:519-538` | `OverloadedSignature.__new__` | `Models.OverloadedSignature.new`, `Models.asPlain` |
| `_core/models.py:540-544` | `OverloadedSignature.__eq__` | `Models.Sig.eq` |
| `_core/models.py:546-547` | `OverloadedSignature.__getnewargs__` | `Models.Sig.roundTrip` |
| `_core/models.py:549-550` | `OverloadedSignature.__hash__` | `Hashing.sig` |
| `_core/models.py:552-554` | `OverloadedSignature.__repr__` | `Text.Sig.repr` |
| `_core/models.py:556-557` | `OverloadedSignature.__str__` | `Text.Sig.str` |
| `_core/models.py:563-567` | `flatten_signature` | `Models.flattenSignature` |
| `_core/models.py:570-575` | `from_signatures` | `Models.fromSignatures` |
| `_core/models.py:578-603` | `_bind_positionals` | `Models.bindPositionals`, `Models.checkPositionals`, `Models.isPositionable` |
| `_core/models.py:606-653` | `_bind_keywords` | `Models.bindKeywords`, `Models.isKeywordable`, `Models.rebindKeyword` |
| `_core/models.py:656-659` | `_validate_kind` | `Models.validateKind` |
| `_core/modules.py:44-81` | `_to_supported_qualified_paths` | `Scoping.filterEntries`, `Scoping.supportedPaths` |
| `_core/namespacing.py:15-19` | `search` | `Evaluation.searchObject`, `Index.World.search` |
| `_core/pretty.py:6-8` | `format_exception` | - |
| `_core/pretty.py:11-13` | `repr_from` | `Pretty.reprFrom` |
| `_core/pretty.py:16-31` | `_` | `Pretty.entriesReprs`, `Pretty.reprFrom` |
| `_core/pretty.py:34-42` | `_` | `Pretty.elementsReprs`, `Pretty.reprFrom` |
| `_core/pretty.py:45-56` | `_` | `Pretty.elementsReprs`, `Pretty.reprFrom` |
| `_core/pretty.py:59-67` | `_` | `Pretty.elementsReprs`, `Pretty.reprFrom` |
| `_core/scoping.py:19-25` | `scope_contains_path` | `Scoping.scopeContains` |
| `_core/scoping.py:28-45` | `contains_object_path` | `Scoping.containsObjectPath` |
| `_core/scoping.py:48-165` | `resolve_object_path` | `Scoping.Tables`, `Scoping.longestReference`, `Scoping.resolve` |
| `_core/signatures.py:34-36` | `from_callable` | `Session.fromCallableS`, `Signatures.Callable`, `Signatures.fromCallable` |
| `_core/signatures.py:39-57` | `_` | `Session.fromCallableS`, `Session.fromInstanceS`, `Signatures.Callable`, `Signatures.fromCallable`, `Signatures.fromInstance` |
| `_core/signatures.py:60-65` | `_` | `Session.fromCallableS`, `Signatures.Callable`, `Signatures.fromCallable` |
| `_core/signatures.py:68-77` | `_` | `Session.fromCallableS`, `Session.fromInstanceS`, `Signatures.Callable`, `Signatures.fromCallable`, `Signatures.fromInstance` |
| `_core/signatures.py:80-89` | `_` | `Session.fromCallableS`, `Session.fromInstanceS`, `Signatures.Callable`, `Signatures.fromCallable`, `Signatures.fromInstance` |
| `_core/signatures.py:92-106` | `_` | `Session.fromCallableS`, `Signatures.Callable`, `Signatures.fromCallable` |
| `_core/signatures.py:109-127` | `_` | `Session.fromCallableS`, `Session.fromClassS`, `Signatures.Callable`, `Signatures.fromCallable`, `Signatures.fromClass` |
| `_core/signatures.py:130-133` | `_` | `Session.fromCallableS`, `Signatures.Callable`, `Signatures.fromCallable` |
| `_core/signatures.py:136-141` | `_from_expression_node` | `Session.fromExpressionS`, `Signatures.fromExpression` |
| `_core/signatures.py:144-177` | `_` | `Session.fromExpressionS`, `Session.fromNamedS`, `Signatures.fromExpression`, `Signatures.fromNamed` |
| `_core/signatures.py:180-211` | `_` | `Session.fromExpressionS`, `Signatures.fromExpression` |
| `_core/signatures.py:214-266` | `_` | `Evaluation.evaluateNode`, `Session.fromCallableItemS`, `Session.fromExpressionS`, `Signatures.fromCallableItem`, `Signatures.fromExpression` |
| `_core/signatures.py:269-274` | `_from_statement_node` | `Session.fromStatementS`, `Signatures.fromStatement` |
| `_core/signatures.py:277-285` | `_` | `Session.fromStatementS`, `Signatures.fromStatement` |
| `_core/signatures.py:288-294` | `_` | `Session.fromStatementS`, `Signatures.fromStatement` |
| `_core/signatures.py:297-310` | `_` | `Session.fromFunctionDefS`, `Session.fromStatementS`, `Signatures.fromFunctionDef`, `Signatures.fromStatement` |
| `_core/signatures.py:313-341` | `_parameters_from` | `Session.adjustedParameters`, `Session.declaredParametersS`, `Session.parametersFromS`, `Signatures.Fn.isType`, `Signatures.declaredParameters`, `Signatures.parametersFrom`, `Signatures.replaceFirst` |
| `_core/signatures.py:344-359` | `_returns_annotation_from` | `Evaluation.evaluateNode`, `Session.returnsFromS`, `Signatures.Fn.isType`, `Signatures.returnsFrom` |
| `_core/signatures.py:362-376` | `_is_classmethod` | `Signatures.isClassmethod` |
| `_core/signatures.py:383-392` | `_try_resolve_object_path` | `Signatures.tryResolve` |
| `_core/signatures.py:395-408` | `_from_callable` | `Session.fromFnS`, `Session.fromPathsS`, `Signatures.fromFn`, `Signatures.fromPaths` |
| `_core/signatures.py:411-420` | `_to_qualified_paths` | `Signatures.toQualifiedPaths` |
| `_core/signatures.py:423-441` | `_resolve_builder_qualified_path` | `Signatures.objectBuilder`, `Signatures.resolveBuilder` |
| `_core/signatures.py:444-453` | `_load_ast_nodes` | `Signatures.loadAstNodes` |
| `_core/signatures.py:456-459` | `_statement_node_from_raw` | `Signatures.loadAstNodes` |
| `_core/signatures.py:462-484` | `resolve_qualified_paths` | `Signatures.candidatePaths`, `Signatures.resolveQualifiedPaths` |
| `_core/signatures.py:487-507` | `_to_class_builder_qualified_path` | `Signatures.builderSearch`, `Signatures.classBuilder`, `Signatures.objectBuilder` |
| `_core/signatures.py:510-519` | `_to_mro` | `Signatures.builderSearch` |
| `_core/signatures.py:522-535` | `_value_has_qualified_path` | `Signatures.Live.follow`, `Signatures.Live.has`, `Signatures.Runtime` |
| `_core/signatures.py:538-555` | `_parameter_from_raw` | `Signatures.paramFromRaw` |
| `_core/signatures.py:558-564` | `_from_raw_signature` | `Signatures.fromRawSignature` |
| `_core/signatures.py:567-594` | `_parameter_from_ast_node` | `Evaluation.evaluateNode`, `Session.annotationFromS`, `Session.paramFromNodeS`, `Signatures.annotationFrom`, `Signatures.paramFromNode` |
| `_core/signatures.py:597-607` | `_to_keyword_parameters` | `Session.toKeywordParametersS`, `Signatures.toKeywordParameters` |
| `_core/signatures.py:610-623` | `_to_positional_parameters` | `Session.toPositionalParametersS`, `Signatures.toPositionalParameters` |
| `_core/signatures.py:626-637` | `_to_variadic_keyword_parameter` | `Session.toVariadicParameterS`, `Signatures.toVariadicParameter` |
| `_core/signatures.py:640-651` | `_to_variadic_positional_parameter` | `Session.toVariadicParameterS`, `Signatures.toVariadicParameter` |
| `_core/sources.py:23-27` | `from_module_path` | `Sources.isPackagePath` |
| `_core/sources.py:30-38` | `is_package` | `Sources.isPackagePath` |
| `_core/sources.py:41-46` | `_find_source_path` | - |
| `_core/sources.py:49-61` | `_to_stubs_cache` | `Sources.moduleOfStub`, `Sources.stubsCache` |
| `_core/sources.py:64-65` | `_is_stub` | `Sources.isStubFile` |
| `_core/sources.py:68-76` | `_relative_file_path_to_module_path` | `Sources.moduleOfFile` |
| `_core/sources.py:86-104` | `_to_modules_paths` | `Sources.isSourceFile`, `Sources.modulesOfFiles` |
| `_core/sources.py:107-115` | `_is_valid_module_path` | `Sources.isValidModulePath` |
| `_core/stubs.py:96-111` | `_named_tuple_to_constructor_ast_node` | `Stubs.annotatedFields`, `Stubs.namedTupleConstructor` |
| `_core/stubs.py:114-124` | `_annotations_to_signature` | `Stubs.namedTupleConstructor` |
| `_core/stubs.py:127-129` | `_ann_assign_to_arg` | `Stubs.fieldArg` |
| `_core/stubs.py:132-146` | `_evaluate_expression` | `Stubs.StubFiles` |
| `_core/stubs.py:149-153` | `_expression_to_assignment` | `Stubs.StubFiles` |
| `_core/stubs.py:156-159` | `_is_generic_specialization` | `Stubs.visitBase` |
| `_core/stubs.py:163-206` | `_StateParser.__init__` | `Stubs.visit` |
| `_core/stubs.py:208-224` | `_StateParser.visit_AnnAssign` | `Stubs.visit`, `Stubs.visitAnnAssign` |
| `_core/stubs.py:226-241` | `_StateParser.visit_Assign` | `Stubs.visit`, `Stubs.visitAssign` |
| `_core/stubs.py:243-247` | `_StateParser.visit_AsyncFunctionDef` | `Stubs.visit`, `Stubs.visitFunctionDef` |
| `_core/stubs.py:249-332` | `_StateParser.visit_ClassDef` | `Stubs.addBase`, `Stubs.visit`, `Stubs.visitBase`, `Stubs.visitClassHead` |
| `_core/stubs.py:334-338` | `_StateParser.visit_FunctionDef` | `Stubs.visit`, `Stubs.visitFunctionDef` |
| `_core/stubs.py:340-359` | `_StateParser.visit_If` | `Stubs.Expr.dependencies`, `Stubs.StubFiles`, `Stubs.evaluateTest`, `Stubs.visit` |
| `_core/stubs.py:361-371` | `_StateParser.visit_Import` | `Stubs.importBindings`, `Stubs.visit`, `Stubs.visitImport` |
| `_core/stubs.py:373-386` | `_StateParser.visit_ImportFrom` | `Stubs.visit`, `Stubs.visitImportFrom` |
| `_core/stubs.py:388-393` | `_StateParser._add_ast_node` | `Stubs.addNode` |
| `_core/stubs.py:395-398` | `_StateParser._add_ast_node_kind` | `Stubs.addKind` |
| `_core/stubs.py:400-402` | `_StateParser._add_name_definition` | `Stubs.addDefinition` |
| `_core/stubs.py:404-407` | `_StateParser._add_path_definition` | `Stubs.Scope.add`, `Stubs.addDefinition` |
| `_core/stubs.py:409-414` | `_StateParser._add_reference` | `Stubs.addReference` |
| `_core/stubs.py:416-419` | `_StateParser._add_submodule` | `Stubs.addSubmodule` |
| `_core/stubs.py:421-428` | `_StateParser._add_superclass` | `Stubs.addSuperclass` |
| `_core/stubs.py:430-440` | `_StateParser._resolve_object_path` | `Stubs.resolveIn` |
| `_core/stubs.py:442-449` | `_StateParser._to_qualified_path` | `Stubs.toQualified` |
| `_core/stubs.py:451-491` | `_StateParser._is_type_var_object_path` | `Stubs.assignedCall`, `Stubs.isTypeVar` |
| `_core/stubs.py:498-561` | `_resolve_object_path` | `Stubs.resolveIn`, `Stubs.resolveP` |
| `_core/stubs.py:564-597` | `_parse_stub_scope` | `Stubs.parseScope` |
| `_core/stubs.py:600-602` | `_unpack_ast_node` | `Stubs.unpack` |
| `_core/stubs.py:605-608` | `_` | `Stubs.unpack` |
| `_core/stubs.py:611-625` | `_collect_type_args` | `Stubs.collectLoop`, `Stubs.collectStep`, `Stubs.collectTypeArgs` |
| `_core/stubs.py:629-630` | `_SpecializeGeneric.__init__` | `Specialization.specialize`, `Specialization.specializeArg`, `Specialization.specializeFunction`, `Specialization.specializeStmt` |
| `_core/stubs.py:632-638` | `_SpecializeGeneric.visit_Name` | `Specialization.specialize`, `Specialization.specializeArg`, `Specialization.specializeFunction`, `Specialization.specializeStmt` |
| `_core/stubs.py:640-646` | `_SpecializeGeneric.visit_Attribute` | `Specialization.specialize`, `Specialization.specializeArg`, `Specialization.specializeFunction`, `Specialization.specializeStmt` |
| `_core/stubs.py:649-700` | `_parse_stubs_state` | `Specialization.parseStubs`, `Stubs.ParseState`, `Stubs.parseAll` |
| `_core/stubs.py:703-751` | `_process_classes_bases` | `Specialization.openSpecializations`, `Specialization.processBase`, `Specialization.processBases`, `Specialization.processClass`, `Specialization.specPath` |
| `_core/stubs.py:754-886` | `_register_base_ast_node` | `Specialization.ParseState.tables`, `Specialization.baseBasePath`, `Specialization.isRegistered`, `Specialization.registerBase`, `Specialization.registerBaseBase`, `Specialization.registerNew`, `Specialization.registerSubscript`, `Specialization.setBase` |
| `_core/stubs.py:889-972` | `_register_generic_specialization` | `Specialization.Scope.getPath`, `Specialization.Scope.mergeAt`, `Specialization.SetOrder`, `Specialization.Stmt.loadedNames`, `Specialization.argsNames`, `Specialization.registerDependency`, `Specialization.registerGeneric`, `Specialization.registerMember`, `Specialization.setSpecKind`, `Specialization.setSpecNodes`, `Specialization.setSpecReference` |
| `_core/utils.py:13-17` | `decorate_if` | - |
| `_core/utils.py:23-26` | `_identity_decorator` | - |
| `base.py:13-16` | `signature_from_callable` | `Session.fromCallableS`, `Signatures.fromCallable` |
