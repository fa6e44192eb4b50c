# Formal model of lycantropos/paradigm (Lean 4)

The text up to "Properties" is kept in `tools/design_head.md`; the tables below it are written by
`tools/design.py` from `properties.jsonl`, `tools/claims.py`, `tools/plans.py`, the sources and
`#print axioms`.

## Trusted base

* Lean 4.33.0's kernel. No own axioms, no `sorry`, no `native_decide`/`bv_decide`, no `implemented_by`,
  no `unsafe`. Theorems use at most `propext`, `Classical.choice` and `Quot.sound`; the table
  "Axioms" lists them for each claimed theorem. Mathlib is not imported.
* The reading of the Python source. The code was read as text and not run. Each model definition
  cites the file and lines it models and states its simplifications; the table "Code" lists for each
  function of the library the model definitions citing it.
* What is assumed about CPython 3.11 on Linux, each fact written as a small specification or a parameter:
  * calls: the rules of argument binding, `Spec/Call.lean` (language reference 6.3.4);
  * `typing.get_args`/`get_origin`, `==` and `hash` of `typing` objects, `Model/Objects.lean`,
    `Model/Hashing.lean` (the hash itself is a parameter with Python's contract);
  * the shapes of `ast` nodes, `Model/Syntax.lean`, and what `inspect.signature` may report;
  * the syntax of literals, `Spec/Literals.lean`, and the limits of the tokenizer on nesting (200
    brackets), digits (4300) and null characters (none), `Spec/Tokenizer.lean`; the reader of annotations
    (`Spec/Expressions.lean`) does not have these limits;
  * Python's own evaluation of expressions, attributes, operators and imports: the parameter
    `Interpreter` of `Model/Evaluation.lean`, of which nothing is assumed unless a theorem says so;
  * files: a write may stop after any prefix of the text; a cut inside a UTF-8 character is a decoding
    error; in C113 files are written and read piece by piece by several processes, elsewhere they
    are not changed by others while they are read.
* The specifications under `lean/Verif/Spec` and the statements under `lean/Verif/Props`.

## Layout

* `lean/Verif/Model/*`: the model, function by function. Exceptions are values (`Except PyErr`);
  recursion of unknown depth takes the recursion limit as a number (running out is `RecursionError`);
  code that changes tables and survives exceptions is a state-passing function.
* `lean/Verif/Spec/*`: independent specifications (Python's own rules, what a name means, ...).
* `lean/Verif/Lemmas/*`: helper lemmas.
* `lean/Verif/Props/*`: the theorems, named after the properties, each beside an example that meets its
  hypotheses. A property that is false for the code has its full statement as `Cxx_statement`, a
  theorem `Cxx_refuted` with a concrete witness and a theorem `Cxx_..._partial` for what does hold.
* `seeded/LOG.jsonl`, `tools/mutate.py`, `tools/mutants/*`: wrong variants of the model, and which theorems
  reject them.

## What is not modelled

* PyPy and versions other than 3.11 (branches on `sys.version_info` and `sys.implementation` are taken as
  on CPython 3.11), type comments, positions in source files.
* Object identity: two equal new objects are the same.
* Garbage collection: between evaluations any entries of the caches with weak references may vanish
  (`Evaluator.after`, `Collecting`; C29, C102-C104, C108, C109); while an annotation is evaluated none do.
* The order in which sets of names are iterated is a parameter of the model (`StubFiles.order`,
  `SetOrder`, `Interpreter.order`; the order of the set of modules is that of the list the
  reading is given, see C118; see also C74, C114).
* Bodies of functions in stubs (always `...`) and `lambda` in their defaults.
* `evaluation.py:430`: classes made from stubs are also entered into the module `evaluation.py`.
* Times and sizes of files: in `Model/Overlap.lean` (C113) any text compiled earlier may be imported for the
  cache file; elsewhere compiled files belong to their text.
* The computation of the tables is taken to be a function of the version of the library (C53).
* In the theorems on single signatures the evaluation of an annotation is a function (`Runtime.ev`);
  `Model/Session.lean` has the same functions with the caches of `evaluation.py` passed on, and C102 says
  for which callables the two agree.
* Live objects: what `getattr`, `vars`, `inspect.signature`, `__module__`, `__qualname__` give is a
  parameter.
* Abstract methods and `typing` overloads without code (`models.py:278-291,439-445`), the `repr`s of two
  enumerations (`kind.py:12-13`, `models.py:34-38`), decorators (`utils.py`), `pretty.format_exception` (text of a warning).

## Where the code disagrees with a property

The note of each property with status "partial" says where the code violates the property as stated
(`false as stated: ...`); the witness is the theorem `..._refuted`. None of these was repaired in the model:
it follows the code.

