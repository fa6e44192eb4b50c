import Verif.Spec.Arguments
import Verif.Model.Signatures

/-!
# What a definition declares (specification)

Python's reading of `inspect` signatures and of `def` statements, independent of paradigm's
conversions.
-/

namespace Paradigm.Spec

open PyCall

/-- Two lists of the same length are related element by element. -/
def Pointwise {α β : Type} (r : α → β → Prop) : List α → List β → Prop
  | [], [] => True
  | a :: as, b :: bs => r a b ∧ Pointwise r as bs
  | _, _ => False

/-- `*args` or `**kwargs`. -/
def Variadic (k : Kind) : Prop := k = .variadicPositional ∨ k = .variadicKeyword

/-! ### `inspect` -/

/-- What `inspect.Signature` and `inspect.Parameter` check (CPython 3.11, `inspect.py`):
distinct names, ordered kinds, no positional parameter without default after one with default,
no default of a variadic parameter. Several `*args` are not rejected. -/
structure InspectValid (raw : RawSig) : Prop where
  distinct : (raw.parameters.map RawParam.name).Nodup
  ordered : raw.parameters.Pairwise (fun p q => rank p.kind ≤ rank q.kind)
  optionalsLast : raw.parameters.Pairwise (fun p q =>
    (q.kind = .positionalOnly ∨ q.kind = .positionalOrKeyword) →
      p.default.isSome → q.default.isSome)
  variadicNoDefault : ∀ p ∈ raw.parameters, Variadic p.kind → p.default = none

/-- The formal parameter has the name, kind and requiredness of the `inspect` parameter. -/
structure Describes (raw : RawParam) (p : Param) : Prop where
  name : p.name = raw.name
  kind : p.kind = raw.kind
  optional : p.isOptional = true ↔ raw.default.isSome ∨ Variadic raw.kind

/-- The parameter has everything the `inspect` parameter has. -/
structure Preserves (raw : RawParam) (p : Param) : Prop extends Describes raw p where
  annotation : p.annotation = raw.annotation.getD (.form anyForm)
  default : p.default? = raw.default

/-! ### `def` statements -/

/-- A formal parameter as written: its `ast.arg`, its default if any, its kind. -/
structure Formal where
  arg : Arg
  default : Option Expr
  kind : Kind

/-- The default written for the `i`-th positional parameter: the `d` defaults belong to the last
`d` positional parameters. -/
def positionalDefault (a : Arguments) (i : Nat) : Option Expr :=
  let n := a.posonlyargs.length + a.args.length
  let d := a.defaults.length
  if i + d < n then none else a.defaults[i + d - n]?

/-- The formal parameters of a `def`, in order. -/
def formals (a : Arguments) : List Formal :=
  a.posonlyargs.zipIdx.map (fun p =>
      { arg := p.1, default := positionalDefault a p.2, kind := .positionalOnly }) ++
  a.args.zipIdx.map (fun p =>
      { arg := p.1, default := positionalDefault a (a.posonlyargs.length + p.2),
        kind := .positionalOrKeyword }) ++
  a.vararg.toList.map (fun p => { arg := p, default := none, kind := .variadicPositional }) ++
  (a.kwonlyargs.zip a.kwDefaults).map (fun p =>
      { arg := p.1, default := p.2, kind := .keywordOnly }) ++
  a.kwarg.toList.map (fun p => { arg := p, default := none, kind := .variadicKeyword })

/-- What Python's parser guarantees about `ast.arguments`. -/
structure Parsed (a : Arguments) : Prop where
  defaults : a.defaults.length ≤ a.posonlyargs.length + a.args.length
  kwDefaults : a.kwDefaults.length = a.kwonlyargs.length
  distinct : ((formals a).map (fun f => f.arg.name)).Nodup

/-- A parameter of the called function has the name, kind and requiredness that the `def` gives
it. -/
structure Declares (f : Formal) (p : Param) : Prop where
  name : p.name = f.arg.name
  kind : p.kind = f.kind
  optional : p.isOptional = true ↔ f.default.isSome ∨ Variadic f.kind

/-- What the stub reader should make of a formal parameter: its name, its kind except that it treats
every positional parameter as positional-only, its annotation and its default, where `...` stands
for an unknown default. `ev` evaluates expressions. -/
structure Transcribes (ev : Expr → Except PyErr Obj) (f : Formal) (p : Param) : Prop where
  name : p.name = f.arg.name
  kind : p.kind = if f.kind = .positionalOrKeyword then .positionalOnly else f.kind
  optional : p.isOptional = true ↔ f.default.isSome ∨ Variadic f.kind
  noAnnotation : f.arg.annotation = none → p.annotation = .form anyForm
  annotation : ∀ e, f.arg.annotation = some e → ev e = .ok p.annotation
  noDefault : f.default = none → p.default? = none
  default : ∀ e, f.default = some e → ∃ v, ev e = .ok v ∧
    (p.default? = none ∧ (v = .atom .ellipsis ∨ v = .atom .noDefault) ∨
      p.default? = some v ∧ v ≠ .atom .ellipsis ∧ v ≠ .atom .noDefault)

/-- Every annotation and default of a definition can be evaluated. -/
def Evaluable (ev : Expr → Except PyErr Obj) (f : FunctionDef) : Prop :=
  (∀ x ∈ formals f.args, ∀ e, x.arg.annotation = some e ∨ x.default = some e →
    ∃ v, ev e = .ok v) ∧ ∀ e, f.returns = some e → ∃ v, ev e = .ok v

/-- The place of a definition. -/
inductive Role where
  | function
  | method
  | classMethod
  | constructor
  deriving DecidableEq

/-- The decorator is the builtin `classmethod`. -/
def IsClassmethod (R : Runtime) (m parent : Path) (d : Expr) : Prop :=
  ∃ path, toMaybePath d = some path ∧ R.resolve m parent path = .ok (["builtins"], ["classmethod"])

/-- It can be said whether the decorator is the builtin `classmethod`: it is no name of an object, or the
object is found. -/
def Identified (R : Runtime) (m parent : Path) (d : Expr) : Prop :=
  ∀ path, toMaybePath d = some path → ∃ q, R.resolve m parent path = .ok q

/-- The parent of the definition is recorded as a class. -/
def InClass (R : Runtime) (m parent : Path) : Prop :=
  ∃ kinds, R.stubs.nodesKinds.lookup m = some kinds ∧ kinds.lookup parent = some .class_

/-- The role in which `f` is used when the signature of `c` is built from it. -/
def HasRole (R : Runtime) (f : FunctionDef) (c : Fn) (m parent : Path) : Role → Prop
  | .constructor => c.isType = true
  | .classMethod => c.isType = false ∧ ∃ d ∈ f.decorators, IsClassmethod R m parent d
  | .method => c.isType = false ∧ (∀ d ∈ f.decorators, ¬ IsClassmethod R m parent d) ∧
      InClass R m parent
  | .function => c.isType = false ∧ (∀ d ∈ f.decorators, ¬ IsClassmethod R m parent d) ∧
      ¬ InClass R m parent

/-- `typing.Type[Self]`. -/
def typeOfSelf : Obj := .alias (some "Type") (.cls 2) [.form selfForm]

/-- The parameters of a signature, given those of the definition: a constructor loses the first
one, for (class) methods the first one is a required positional-only `self` (`cls`). -/
def Adjusted : Role → List Param → List Param → Prop
  | .function, full, ps => ps = full
  | .constructor, full, ps => ∃ first, full = first :: ps
  | .method, full, ps => ∃ first rest, full = first :: rest ∧
      ps = .required (.form selfForm) .positionalOnly first.name :: rest
  | .classMethod, full, ps => ∃ first rest, full = first :: rest ∧
      ps = .required typeOfSelf .positionalOnly first.name :: rest

end Paradigm.Spec
