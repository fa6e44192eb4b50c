import Verif.Model.Catalog
import Verif.Model.Models
import Verif.Model.Syntax

/-!
# Signatures of callables

Models `/repo/paradigm/_core/signatures.py`: the conversion of `inspect` signatures, the conversion
of stub definitions, the search for the definition of a callable and the dispatch of
`from_callable`.

The evaluation of annotations and defaults (`arboreal/evaluation.py`) is a parameter (`Runtime.ev`),
as is what is asked of live objects: `inspect.signature`, `getattr(type(self), name)` and
`_value_has_qualified_path`. `catalog.qualified_path_from` is modelled in `Model/Catalog.lean`.
-/

namespace Paradigm

/-- `typing.Any`. -/
def anyObj : Obj := .form anyForm
/-- `typing_extensions.Self`. -/
def selfObj : Obj := .form selfForm
/-- The class `type`. -/
def typeCls : Ident := 2
/-- `typing.Type[Self]`. -/
def typeSelfObj : Obj := .alias (some "Type") (.cls typeCls) [selfObj]

/-! ### `inspect` signatures -/

/-- `inspect.Parameter`; `none` is `inspect._empty`. -/
structure RawParam where
  name : String
  kind : Kind
  annotation : Option Obj := none
  default : Option Obj := none

/-- `inspect.Signature`. -/
structure RawSig where
  parameters : List RawParam
  returns : Option Obj := none

/-- `_parameter_from_raw`, `/repo/paradigm/_core/signatures.py:538-555`. `ParameterKind(raw.kind)`
is the kind of the same number (`/repo/paradigm/_core/models.py:26-32`). -/
def paramFromRaw (raw : RawParam) : Except PyErr Param :=
  let annotation := raw.annotation.getD anyObj
  match raw.default with
  | none =>
    if raw.kind == .variadicPositional || raw.kind == .variadicKeyword then
      OptionalParameter.new annotation (.kind raw.kind) raw.name
    else RequiredParameter.new annotation (.kind raw.kind) raw.name
  | some default => OptionalParameter.new annotation (.kind raw.kind) raw.name default

/-- `_from_raw_signature`, `/repo/paradigm/_core/signatures.py:558-564`. -/
def fromRawSignature (value : RawSig) : Except PyErr Sig := do
  let parameters ← mapExcept paramFromRaw value.parameters
  let signature ← PlainSig.new parameters (value.returns.getD anyObj)
  return .plain signature

/-! ### Stub definitions -/

/-- A callable as far as `_from_callable` looks at it: what `catalog.qualified_path_from` reads of it
and the object itself (to be bound). -/
structure Fn where
  named : Named
  obj : Obj := .atom .none

/-- `isinstance(value, type)`, `/repo/paradigm/_core/signatures.py:330,354`. -/
def Fn.isType (c : Fn) : Bool :=
  match c.named with
  | .cls _ _ => true
  | _ => false

/-- What the functions of `signatures.py` read from their surroundings: the stub tables, the number
of nested calls the interpreter allows to a resolution or search, the evaluation of expressions
(`evaluate_expression_node(node, module_path, parent_path, {})`),
`supported_stdlib_qualified_paths` and `_value_has_qualified_path`
(`/repo/paradigm/_core/signatures.py:522-535`). -/
structure Runtime where
  stubs : Stubs
  depth : Nat
  ev : Path → Path → Expr → Except PyErr Obj
  index : Index := []
  has : Fn → QPath → Bool := fun _ _ => true

/-- `scoping.resolve_object_path` applied to the stub tables. -/
def Runtime.resolve (R : Runtime) (m parent object : Path) : Except PyErr QPath :=
  Paradigm.resolve R.stubs.toTables R.depth m parent object []

/-- `default is Ellipsis`. -/
def Obj.isEllipsis : Obj → Bool
  | .atom .ellipsis => true
  | _ => false

/-- The annotation of an `ast.arg`, `/repo/paradigm/_core/signatures.py:572-575`. -/
def annotationFrom (ev : Expr → Except PyErr Obj) (node : Arg) : Except PyErr Obj :=
  match node.annotation with
  | none => .ok anyObj
  | some e => ev e

/-- `_parameter_from_ast_node`, `/repo/paradigm/_core/signatures.py:567-594`;
`ev` is the evaluation in the module and parent at hand. -/
def paramFromNode (ev : Expr → Except PyErr Obj) (node : Arg) (default : Option Expr)
    (kind : Kind) : Except PyErr Param := do
  let annotation ← annotationFrom ev node
  match default with
  | some e =>
    let default ← ev e
    if default.isEllipsis then OptionalParameter.new annotation (.kind kind) node.name
    else OptionalParameter.new annotation (.kind kind) node.name default
  | none =>
    if kind == .variadicPositional || kind == .variadicKeyword then
      OptionalParameter.new annotation (.kind kind) node.name
    else RequiredParameter.new annotation (.kind kind) node.name

/-- `itertools.zip_longest` of two iterables. -/
def zipLongest {α β : Type} : List α → List β → List (Option α × Option β)
  | [], bs => bs.map (fun b => (none, some b))
  | a :: as, [] => (some a, none) :: zipLongest as []
  | a :: as, b :: bs => (some a, some b) :: zipLongest as bs

/-- `_to_positional_parameters`, `/repo/paradigm/_core/signatures.py:610-623`. `None.annotation`
is an `AttributeError`. -/
def toPositionalParameters (ev : Expr → Except PyErr Obj) (a : Arguments) :
    Except PyErr (List Param) :=
  mapExcept (fun pd : Option Arg × Option Expr =>
      match pd.1 with
      | none => .error .attributeError
      | some node => paramFromNode ev node pd.2 .positionalOnly)
    (zipLongest a.args.reverse a.defaults.reverse).reverse

/-- `_to_keyword_parameters`, `/repo/paradigm/_core/signatures.py:597-607`. -/
def toKeywordParameters (ev : Expr → Except PyErr Obj) (a : Arguments) :
    Except PyErr (List Param) :=
  mapExcept (fun pd : Arg × Option Expr => paramFromNode ev pd.1 pd.2 .keywordOnly)
    (a.kwonlyargs.zip a.kwDefaults)

/-- `_to_variadic_positional_parameter`, `_to_variadic_keyword_parameter`,
`/repo/paradigm/_core/signatures.py:626-651`; no parameter is no element
(`filter(None, ...)`, `:320-329`). -/
def toVariadicParameter (ev : Expr → Except PyErr Obj) (node : Option Arg) (kind : Kind) :
    Except PyErr (List Param) :=
  match node with
  | none => .ok []
  | some node => do
    let p ← paramFromNode ev node none kind
    return [p]

/-- The list built first by `_parameters_from`, `/repo/paradigm/_core/signatures.py:319-329`. -/
def declaredParameters (ev : Expr → Except PyErr Obj) (a : Arguments) :
    Except PyErr (List Param) := do
  let positionals ← toPositionalParameters ev a
  let varPositional ← toVariadicParameter ev a.vararg .variadicPositional
  let keywords ← toKeywordParameters ev a
  let varKeyword ← toVariadicParameter ev a.kwarg .variadicKeyword
  return positionals ++ varPositional ++ keywords ++ varKeyword

/-- `any(f(x) for x in xs)` where `f` may raise. -/
def anyExcept {α : Type} (f : α → Except PyErr Bool) : List α → Except PyErr Bool
  | [] => .ok false
  | x :: xs =>
    match f x with
    | .error e => .error e
    | .ok true => .ok true
    | .ok false => anyExcept f xs

/-- `_is_classmethod`, `/repo/paradigm/_core/signatures.py:362-376`. -/
def isClassmethod (R : Runtime) (m parent : Path) (node : Expr) : Except PyErr Bool :=
  match toMaybePath node with
  | none => .ok false
  | some path =>
    match R.resolve m parent path with
    | .error e => .error e
    | .ok q => .ok (q == (builtinsPath, ["classmethod"]))

/-- `result[0] = RequiredParameter(annotation=..., kind=POSITIONAL_ONLY, name=result[0].name)`,
`/repo/paradigm/_core/signatures.py:334-340`. -/
def replaceFirst (annotation : Obj) : List Param → Except PyErr (List Param)
  | [] => .error .indexError
  | p :: ps => do
    let p ← RequiredParameter.new annotation (.kind .positionalOnly) p.name
    return p :: ps

/-- `_parameters_from`, `/repo/paradigm/_core/signatures.py:313-341`. -/
def parametersFrom (R : Runtime) (f : FunctionDef) (c : Fn) (m parent : Path) :
    Except PyErr (List Param) := do
  let result ← declaredParameters (R.ev m parent) f.args
  if c.isType then
    match result with
    | [] => .error .indexError
    | _ :: result => .ok result
  else
    if ← anyExcept (isClassmethod R m parent) f.decorators then
      replaceFirst typeSelfObj result
    else
      match R.stubs.nodesKinds.lookup m with
      | none => .error .keyError
      | some kinds =>
        if kinds.lookup parent == some .class_ then replaceFirst selfObj result
        else .ok result

/-- `_returns_annotation_from`, `/repo/paradigm/_core/signatures.py:344-359`. -/
def returnsFrom (R : Runtime) (f : FunctionDef) (c : Fn) (m parent : Path) : Except PyErr Obj :=
  if c.isType && f.name == "__init__" then .ok selfObj
  else
    match f.returns with
    | none => .ok anyObj
    | some e => R.ev m parent e

/-- `_from_statement_node` for function definitions,
`/repo/paradigm/_core/signatures.py:297-310`. -/
def fromFunctionDef (R : Runtime) (f : FunctionDef) (c : Fn) (m parent : Path) :
    Except PyErr Sig := do
  let parameters ← parametersFrom R f c m parent
  let returns ← returnsFrom R f c m parent
  let signature ← PlainSig.new parameters returns
  return .plain signature

/-- `_load_ast_nodes`, `/repo/paradigm/_core/signatures.py:444-459`. -/
def loadAstNodes (R : Runtime) (m object : Path) : Except PyErr (List Stmt) :=
  match R.stubs.rawAstNodes.lookup m with
  | none => .error .signatureNotFound
  | some nodes =>
    match nodes.lookup object with
    | none => .error .signatureNotFound
    | some [] => .error .assertionError
    | some nodes => .ok nodes

/-- `d[key]`. -/
def getItem {α β : Type} [BEq α] (d : Dict α β) (key : α) : Except PyErr β :=
  match d.lookup key with
  | none => .error .keyError
  | some v => .ok v

/-- `catalog.module_path_from_module(typing)`. -/
def typingPath : Path := ["typing"]

/-- The signature for `Callable[[...], R]` / `Callable[..., R]`,
`/repo/paradigm/_core/signatures.py:230-265`. -/
def fromCallableItem (ev : Expr → Except PyErr Obj) (item : Expr) : Except PyErr Sig :=
  match item with
  | .tuple [arguments, returns] _ =>
    match arguments with
    | .list elts => do
      let ps ← mapExcept (fun ei : Expr × Nat => do
        let annotation ← ev ei.1
        RequiredParameter.new annotation (.kind .positionalOnly) ("_" ++ toString ei.2)) elts.zipIdx
      let returns ← ev returns
      let s ← PlainSig.new ps returns
      return .plain s
    | _ => do
      let args ← OptionalParameter.new anyObj (.kind .variadicPositional) "args"
      let kwargs ← OptionalParameter.new anyObj (.kind .variadicKeyword) "kwargs"
      let returns ← ev returns
      let s ← PlainSig.new [args, kwargs] returns
      return .plain s
  | .tuple _ _ => .error (.valueError "unpack")
  | _ => .error .assertionError

/-- The handler for names and attributes, `/repo/paradigm/_core/signatures.py:144-177`; `statement`
is the recursive call of `_from_statement_node`. -/
def fromNamed (R : Runtime) (statement : Stmt → Path → Except PyErr Sig) (e : Expr) (c : Fn)
    (m parent : Path) : Except PyErr Sig := do
  let path ← toPath e
  let q ← R.resolve m parent path
  let kinds ← getItem R.stubs.nodesKinds q.1
  let kind ← getItem kinds q.2
  if kind == .class_ then
    let nodes ← loadAstNodes R q.1 (q.2 ++ ["__call__"])
    let signatures ← mapExcept (fun node => statement node q.1) nodes
    let bound ← mapExcept (fun s : Sig => s.bind [c.obj] []) signatures
    fromSignatures bound
  else
    let nodes ← getItem R.stubs.rawAstNodes q.1
    let nodes ← getItem nodes q.2
    match nodes with
    | [node] => statement node q.1
    | _ => .error .signatureNotFound

mutual

/-- `_from_expression_node`, `/repo/paradigm/_core/signatures.py:136-266`; the first argument is the
number of nested calls the interpreter still allows. -/
def fromExpression (R : Runtime) : Nat → Expr → Fn → Path → Path → Except PyErr Sig
  | 0, _, _, _, _ => .error .recursionError
  | n + 1, e, c, m, parent =>
    match e with
    | .name .. | .attribute .. =>
      fromNamed R (fun node m => fromStatement R n node c m []) e c m parent
    | .call func args keywords => do
      let path ← toPath func
      let q ← R.resolve m parent path
      if q == (typingPath, ["TypeVar"]) then
        match keywords.find? (fun k => k.1 == some "bound") with
        | none =>
          let signatures ← mapExcept (fun e => fromExpression R n e c m parent) (args.drop 1)
          fromSignatures signatures
        | some bound => fromExpression R n bound.2 c m parent
      else .error .signatureNotFound
    | .subscript value slice _ => do
      let path ← toPath value
      let q ← R.resolve m parent path
      if q == (typingPath, ["Callable"]) then fromCallableItem (R.ev m parent) slice
      else .error .signatureNotFound
    | _ => .error (.typeError "expression")

/-- `_from_statement_node`, `/repo/paradigm/_core/signatures.py:269-310`. -/
def fromStatement (R : Runtime) : Nat → Stmt → Fn → Path → Path → Except PyErr Sig
  | 0, _, _, _, _ => .error .recursionError
  | n + 1, node, c, m, parent =>
    match node with
    | .annAssign _ annotation value => fromExpression R n (value.getD annotation) c m parent
    | .assign _ value => fromExpression R n value c m parent
    | .functionDef f => fromFunctionDef R f c m parent
    | _ => .error (.typeError "statement")

end

/-! ### The search for the definition -/

/-- The running interpreter as `_value_has_qualified_path` sees it: `sys.modules.get` and `getattr`
on objects named by their identity. Simplified: `getattr` either gives an object or raises
`AttributeError`, and gives the same object each time. -/
structure Live where
  loaded : Path → Option Nat
  getattr : Nat → String → Option Nat

/-- The loop of `_value_has_qualified_path`, `/repo/paradigm/_core/signatures.py:530-534`. -/
def Live.follow (L : Live) (candidate : Nat) : Path → Option Nat
  | [] => some candidate
  | part :: parts =>
    match L.getattr candidate part with
    | none => none
    | some candidate => L.follow candidate parts

/-- `_value_has_qualified_path`, `/repo/paradigm/_core/signatures.py:522-535`. -/
def Live.has (L : Live) (value : Nat) (path : QPath) : Bool :=
  match L.loaded path.1 with
  | none => true
  | some candidate =>
    match L.follow candidate path.2 with
    | none => false
    | some candidate => candidate == value

/-- `<` of tuples of strings. -/
def pathLt (p q : Path) : Bool := decide (p < q)

/-- `<` of pairs of tuples. -/
def qpathLt (p q : QPath) : Bool := pathLt p.1 q.1 || (p.1 == q.1 && pathLt p.2 q.2)

/-- Adding an element to a set that is kept as a sorted list. -/
def insertSorted (q : QPath) : List QPath → List QPath
  | [] => [q]
  | x :: xs =>
    if qpathLt q x then q :: x :: xs
    else if q == x then x :: xs
    else x :: insertSorted q xs

/-- `sorted({...})`. -/
def sortedSet : List QPath → List QPath
  | [] => []
  | q :: qs => insertSorted q (sortedSet qs)

/-- `_try_resolve_object_path`, `/repo/paradigm/_core/signatures.py:383-392`. -/
def tryResolve (R : Runtime) (q : QPath) : Except PyErr QPath :=
  match R.resolve q.1 [] q.2 with
  | .error .objectNotFound => .ok ([], [])
  | r => r

/-- The candidates of `resolve_qualified_paths`, `/repo/paradigm/_core/signatures.py:465-476`. -/
def candidatePaths (R : Runtime) (value : Fn) : Except PyErr (List QPath) := do
  let (m, object) ← qualifiedPathFrom value.named
  match (R.index.lookup m).bind (fun objects => objects.lookup object) with
  | none =>
    if !m.isEmpty && object.isEmpty then .error .assertionError
    else .ok (if m.isEmpty then [] else [(m, object)])
  | some paths => .ok (paths.filter (R.has value))

/-- `resolve_qualified_paths`, `/repo/paradigm/_core/signatures.py:462-484`. -/
def resolveQualifiedPaths (R : Runtime) (value : Fn) : Except PyErr (List QPath) := do
  let candidates ← candidatePaths R value
  let resolved ← mapExcept (tryResolve R) candidates
  return sortedSet (resolved.filter (fun q => !q.1.isEmpty && !q.2.isEmpty))

/-- `object_builder_qualified_path`, `/repo/paradigm/_core/signatures.py:426-429,491-494`. -/
def objectBuilder : QPath := (builtinsPath, ["object", "__new__"])

/-- The loop `for base in bases: ... ` of a search that stops at the first hit. -/
def firstHit {α β : Type} (f : α → Except PyErr (Option β)) : List α → Except PyErr (Option β)
  | [] => .ok none
  | x :: xs =>
    match f x with
    | .error e => .error e
    | .ok (some b) => .ok (some b)
    | .ok none => firstHit f xs

/-- The loop of `_to_class_builder_qualified_path` over the generator `_to_mro`,
`/repo/paradigm/_core/signatures.py:498-506,510-519`: the generator is advanced only until the loop
returns, so that both are one depth-first search. `object` is the path of the class asked about (it
is `object_path`, not `base_object_path`, that is extended at `:501-502`). -/
def builderSearch (R : Runtime) (object : Path) : Nat → QPath → Except PyErr (Option QPath)
  | 0, _ => .error .recursionError
  | n + 1, (bm, bo) =>
    match R.stubs.rawAstNodes.lookup bm with
    | none => .error .keyError
    | some annotations =>
      if (annotations.lookup (object ++ ["__init__"])).isSome then
        .ok (some (bm, object ++ ["__init__"]))
      else if (annotations.lookup (object ++ ["__new__"])).isSome then
        .ok (some (bm, object ++ ["__new__"]))
      else
        match (R.stubs.superclasses.lookup bm).bind (fun supers => supers.lookup bo) with
        | none => .ok none
        | some bases => firstHit (builderSearch R object n) bases

/-- `_to_class_builder_qualified_path`, `/repo/paradigm/_core/signatures.py:487-507`. -/
def classBuilder (R : Runtime) (q : QPath) : Except PyErr QPath := do
  let found ← builderSearch R q.2 R.depth q
  return found.getD objectBuilder

/-- `_resolve_builder_qualified_path`, `/repo/paradigm/_core/signatures.py:423-441`. The set of
candidates is kept without repetitions, its order is irrelevant. -/
def resolveBuilder (R : Runtime) (paths : List QPath) : Except PyErr QPath := do
  let candidates ← mapExcept (classBuilder R) paths
  match sortedSet candidates with
  | [q] => return q
  | candidates =>
    if candidates.contains objectBuilder then
      match candidates.filter (fun q => q != objectBuilder) with
      | [q] => return q
      | _ => .error .signatureNotFound
    else .error .signatureNotFound

/-- `_to_qualified_paths`, `/repo/paradigm/_core/signatures.py:411-420` (whatever raises does so
before the first path is yielded). -/
def toQualifiedPaths (R : Runtime) (value : Fn) : Except PyErr (List QPath) := do
  let paths ← resolveQualifiedPaths R value
  match paths with
  | [] => return []
  | q :: _ =>
    let kinds ← getItem R.stubs.nodesKinds q.1
    let kind ← getItem kinds q.2
    if kind == .class_ then
      let q ← resolveBuilder R paths
      return [q]
    else return paths

/-- The loop of `_from_callable`, `/repo/paradigm/_core/signatures.py:396-408`. -/
def fromPaths (R : Runtime) (value : Fn) : List QPath → Except PyErr Sig
  | [] => .error .signatureNotFound
  | (m, object) :: paths =>
    match loadAstNodes R m object with
    | .error e => .error e
    | .ok nodes =>
      match mapExcept (fun node => fromStatement R R.depth node value m object.dropLast) nodes with
      | .error .signatureNotFound => fromPaths R value paths
      | .error e => .error e
      | .ok signatures => fromSignatures signatures

/-- `_from_callable`, `/repo/paradigm/_core/signatures.py:395-408`. -/
def fromFn (R : Runtime) (value : Fn) : Except PyErr Sig := do
  let paths ← toQualifiedPaths R value
  fromPaths R value paths

/-! ### Dispatch -/

/-- `__self__` of a builtin: nothing, a module, a class, or an instance together with
`getattr(type(self), name)`. -/
inductive Owner where
  | none
  | module (name : String) (spec : Option String)
  | type (module_ : TextAttr)
  | instance (self : Obj) (attr : Except PyErr Fn)

/-- `__self__` as `catalog.qualified_path_from` sees it. -/
def Owner.self : Owner → BuiltinSelf
  | .none => .none
  | .module name spec => .module name spec
  | .type module_ => .type module_
  | .instance _ _ => .instance

/-- `__module__` (for descriptors that of `__objclass__`), `__qualname__` and the object itself. -/
structure Labels where
  module_ : TextAttr
  qualname : String
  obj : Obj := .atom .none

/-- A builtin. -/
def Fn.ofBuiltin (owner : Owner) (qualname : String) (obj : Obj) : Fn :=
  { named := .builtin owner.self qualname, obj }

/-- A function. -/
def Fn.ofFunction (l : Labels) : Fn := { named := .function l.module_ l.qualname, obj := l.obj }

/-- A method descriptor or wrapper descriptor. -/
def Fn.ofDescriptor (l : Labels) : Fn := { named := .descriptor l.module_ l.qualname, obj := l.obj }

/-- A class. -/
def Fn.ofClass (l : Labels) : Fn := { named := .cls l.module_ l.qualname, obj := l.obj }

/-- A bound method; there is no implementation of `catalog.qualified_path_from` for these. -/
def Fn.ofMethod (obj : Obj) : Fn := { named := .other, obj }

/-- Callables by the class `from_callable` dispatches on, `/repo/paradigm/_core/signatures.py:34-133`;
`raw` is the outcome of `inspect.signature`. `self` of a method or method wrapper is `none` for a
class and otherwise the instance with `getattr(type(self), name)`. -/
inductive Callable where
  | builtin (owner : Owner) (qualname : String) (obj : Obj) (raw : Except PyErr RawSig)
  | function (l : Labels) (raw : Except PyErr RawSig)
  | method (obj : Obj) (self : Option (Obj × Except PyErr Fn)) (raw : Except PyErr RawSig)
  | methodWrapper (self : Option (Obj × Except PyErr Fn)) (raw : Except PyErr RawSig)
  | descriptor (l : Labels) (raw : Except PyErr RawSig)
  | cls (l : Labels) (raw : Except PyErr RawSig)
  | partial_ (func : Callable) (args : List Obj) (keywords : Kwargs)
  | other

/-- `_from_raw_signature(inspect.signature(callable))`. -/
def fromInspect (raw : Except PyErr RawSig) : Except PyErr Sig := do
  let raw ← raw
  fromRawSignature raw

/-- `try: return r except _SignatureNotFound: return fallback`. -/
def orElse (r fallback : Except PyErr Sig) : Except PyErr Sig :=
  match r with
  | .error .signatureNotFound => fallback
  | r => r

/-- `_from_callable(getattr(type(self), name)).bind(self)`,
`/repo/paradigm/_core/signatures.py:50-52,73-75,86-87`. -/
def fromInstance (R : Runtime) (self : Obj) (attr : Except PyErr Fn) : Except PyErr Sig := do
  let attr ← attr
  let signature ← fromFn R attr
  signature.bind [self] []

/-- The body of the handler for classes, `/repo/paradigm/_core/signatures.py:111-122`. -/
def fromClass (R : Runtime) (f : Fn) : Except PyErr Sig := do
  let paths ← resolveQualifiedPaths R f
  if paths.isEmpty then .error .signatureNotFound
  else
    let q ← resolveBuilder R paths
    let nodes ← loadAstNodes R q.1 q.2
    let signatures ← mapExcept (fun node => fromStatement R R.depth node f q.1 q.2.dropLast) nodes
    fromSignatures signatures

/-- `from_callable` (`signature_from_callable`), `/repo/paradigm/_core/signatures.py:34-133`,
`/repo/paradigm/base.py:13-16`. -/
def fromCallable (R : Runtime) : Callable → Except PyErr Sig
  | .builtin owner qualname obj raw =>
    orElse (match owner with
      | .none | .module _ _ | .type _ => fromFn R (.ofBuiltin owner qualname obj)
      | .instance self attr => fromInstance R self attr) (fromInspect raw)
  | .function l raw => orElse (fromFn R (.ofFunction l)) (fromInspect raw)
  | .method obj self raw =>
    orElse (match self with
      | none => fromFn R (.ofMethod obj)
      | some (self, attr) => fromInstance R self attr) (fromInspect raw)
  | .methodWrapper self raw =>
    match self with
    | none => .error .assertionError
    | some (self, attr) => orElse (fromInstance R self attr) (fromInspect raw)
  | .descriptor l raw => orElse (fromFn R (.ofDescriptor l)) (fromInspect raw)
  | .cls l raw =>
    orElse (fromClass R (.ofClass l)) (do
      let raw ← raw
      fromRawSignature { raw with returns := some selfObj })
  | .partial_ func args keywords => do
    let signature ← fromCallable R func
    signature.bind args keywords
  | .other => .error (.typeError "not supported")

end Paradigm
