import Verif.Model.Signatures
import Verif.Model.Evaluation

/-!
# Signatures over an evaluator with caches (model)

`Model/Signatures.lean` takes the evaluation of annotations for a function. In the code it has caches
which outlive the call (`/repo/paradigm/_core/arboreal/evaluation.py:219,302-305`): what was evaluated
for one callable is there when the next is asked about. Here the functions of `signatures.py` which
evaluate are modelled once more, in the monad `Ev` of the evaluator, and a session is a sequence of
calls of `signature_from_callable`. What does not evaluate is taken from `Model/Signatures.lean`; the
field `ev` of `Runtime` is not used.
-/

namespace Paradigm

/-- Evaluation of an expression in a module and a parent,
`evaluate_expression_node(node, module_path, parent_path, {})`. -/
abbrev Evaluator := Path → Path → Expr → Ev Obj Obj

/-- The annotation of an `ast.arg`, `/repo/paradigm/_core/signatures.py:572-575`. -/
def annotationFromS (ev : Expr → Ev Obj Obj) (node : Arg) : Ev Obj Obj :=
  match node.annotation with
  | none => pure anyObj
  | some e => ev e

/-- `_parameter_from_ast_node`, `/repo/paradigm/_core/signatures.py:567-594`. -/
def paramFromNodeS (ev : Expr → Ev Obj Obj) (node : Arg) (default : Option Expr) (kind : Kind) :
    Ev Obj Param := do
  let annotation ← annotationFromS ev node
  match default with
  | some e =>
    let default ← ev e
    if default.isEllipsis then Ev.lift (OptionalParameter.new annotation (.kind kind) node.name)
    else Ev.lift (OptionalParameter.new annotation (.kind kind) node.name default)
  | none =>
    if kind == .variadicPositional || kind == .variadicKeyword then
      Ev.lift (OptionalParameter.new annotation (.kind kind) node.name)
    else Ev.lift (RequiredParameter.new annotation (.kind kind) node.name)

/-- `_to_positional_parameters`, `/repo/paradigm/_core/signatures.py:610-623`. -/
def toPositionalParametersS (ev : Expr → Ev Obj Obj) (a : Arguments) : Ev Obj (List Param) :=
  Ev.each (fun pd : Option Arg × Option Expr =>
      match pd.1 with
      | none => Ev.raise .attributeError
      | some node => paramFromNodeS ev node pd.2 .positionalOnly)
    (zipLongest a.args.reverse a.defaults.reverse).reverse

/-- `_to_keyword_parameters`, `/repo/paradigm/_core/signatures.py:597-607`. -/
def toKeywordParametersS (ev : Expr → Ev Obj Obj) (a : Arguments) : Ev Obj (List Param) :=
  Ev.each (fun pd : Arg × Option Expr => paramFromNodeS ev pd.1 pd.2 .keywordOnly)
    (a.kwonlyargs.zip a.kwDefaults)

/-- `_to_variadic_positional_parameter`, `_to_variadic_keyword_parameter`,
`/repo/paradigm/_core/signatures.py:626-651`. -/
def toVariadicParameterS (ev : Expr → Ev Obj Obj) (node : Option Arg) (kind : Kind) :
    Ev Obj (List Param) :=
  match node with
  | none => pure []
  | some node => do
    let p ← paramFromNodeS ev node none kind
    pure [p]

/-- The list built first by `_parameters_from`, `/repo/paradigm/_core/signatures.py:319-329`. -/
def declaredParametersS (ev : Expr → Ev Obj Obj) (a : Arguments) : Ev Obj (List Param) := do
  let positionals ← toPositionalParametersS ev a
  let varPositional ← toVariadicParameterS ev a.vararg .variadicPositional
  let keywords ← toKeywordParametersS ev a
  let varKeyword ← toVariadicParameterS ev a.kwarg .variadicKeyword
  pure (positionals ++ varPositional ++ keywords ++ varKeyword)

/-- What `_parameters_from` does with the list, `/repo/paradigm/_core/signatures.py:330-341`. -/
def adjustedParameters (R : Runtime) (f : FunctionDef) (c : Fn) (m parent : Path)
    (result : List Param) : Except PyErr (List Param) := do
  if c.isType then
    match result with
    | [] => .error .indexError
    | _ :: result => .ok result
  else
    if ← anyExcept (isClassmethod R m parent) f.decorators then
      replaceFirst typeSelfObj result
    else
      match R.stubs.nodesKinds.lookup m with
      | none => .error .keyError
      | some kinds =>
        if kinds.lookup parent == some .class_ then replaceFirst selfObj result
        else .ok result

/-- `_parameters_from`, `/repo/paradigm/_core/signatures.py:313-341`. -/
def parametersFromS (R : Runtime) (E : Evaluator) (f : FunctionDef) (c : Fn) (m parent : Path) :
    Ev Obj (List Param) := do
  let result ← declaredParametersS (E m parent) f.args
  Ev.lift (adjustedParameters R f c m parent result)

/-- `_returns_annotation_from`, `/repo/paradigm/_core/signatures.py:344-359`. -/
def returnsFromS (E : Evaluator) (f : FunctionDef) (c : Fn) (m parent : Path) : Ev Obj Obj :=
  if c.isType && f.name == "__init__" then pure selfObj
  else
    match f.returns with
    | none => pure anyObj
    | some e => E m parent e

/-- `_from_statement_node` for function definitions,
`/repo/paradigm/_core/signatures.py:297-310`. -/
def fromFunctionDefS (R : Runtime) (E : Evaluator) (f : FunctionDef) (c : Fn) (m parent : Path) :
    Ev Obj Sig := do
  let parameters ← parametersFromS R E f c m parent
  let returns ← returnsFromS E f c m parent
  let signature ← Ev.lift (PlainSig.new parameters returns)
  pure (.plain signature)

/-- The signature for `Callable[[...], R]` / `Callable[..., R]`,
`/repo/paradigm/_core/signatures.py:230-265`. -/
def fromCallableItemS (ev : Expr → Ev Obj Obj) (item : Expr) : Ev Obj Sig :=
  match item with
  | .tuple [arguments, returns] _ =>
    match arguments with
    | .list elts => do
      let ps ← Ev.each (fun ei : Expr × Nat => do
        let annotation ← ev ei.1
        Ev.lift (RequiredParameter.new annotation (.kind .positionalOnly) ("_" ++ toString ei.2)))
          elts.zipIdx
      let returns ← ev returns
      let s ← Ev.lift (PlainSig.new ps returns)
      pure (.plain s)
    | _ => do
      let args ← Ev.lift (OptionalParameter.new anyObj (.kind .variadicPositional) "args")
      let kwargs ← Ev.lift (OptionalParameter.new anyObj (.kind .variadicKeyword) "kwargs")
      let returns ← ev returns
      let s ← Ev.lift (PlainSig.new [args, kwargs] returns)
      pure (.plain s)
  | .tuple _ _ => Ev.raise (.valueError "unpack")
  | _ => Ev.raise .assertionError

/-- The handler for names and attributes, `/repo/paradigm/_core/signatures.py:144-177`. -/
def fromNamedS (R : Runtime) (statement : Stmt → Path → Ev Obj Sig) (e : Expr) (c : Fn)
    (m parent : Path) : Ev Obj Sig := do
  let path ← Ev.lift (toPath e)
  let q ← Ev.lift (R.resolve m parent path)
  let kinds ← Ev.lift (getItem R.stubs.nodesKinds q.1)
  let kind ← Ev.lift (getItem kinds q.2)
  if kind == .class_ then
    let nodes ← Ev.lift (loadAstNodes R q.1 (q.2 ++ ["__call__"]))
    let signatures ← Ev.each (fun node => statement node q.1) nodes
    let bound ← Ev.lift (mapExcept (fun s : Sig => s.bind [c.obj] []) signatures)
    Ev.lift (fromSignatures bound)
  else
    let nodes ← Ev.lift (getItem R.stubs.rawAstNodes q.1)
    let nodes ← Ev.lift (getItem nodes q.2)
    match nodes with
    | [node] => statement node q.1
    | _ => Ev.raise .signatureNotFound

mutual

/-- `_from_expression_node`, `/repo/paradigm/_core/signatures.py:136-266`. -/
def fromExpressionS (R : Runtime) (E : Evaluator) : Nat → Expr → Fn → Path → Path → Ev Obj Sig
  | 0, _, _, _, _ => Ev.raise .recursionError
  | n + 1, e, c, m, parent =>
    match e with
    | .name .. | .attribute .. =>
      fromNamedS R (fun node m => fromStatementS R E n node c m []) e c m parent
    | .call func args keywords => do
      let path ← Ev.lift (toPath func)
      let q ← Ev.lift (R.resolve m parent path)
      if q == (typingPath, ["TypeVar"]) then
        match keywords.find? (fun k => k.1 == some "bound") with
        | none =>
          let signatures ← Ev.each (fun e => fromExpressionS R E n e c m parent) (args.drop 1)
          Ev.lift (fromSignatures signatures)
        | some bound => fromExpressionS R E n bound.2 c m parent
      else Ev.raise .signatureNotFound
    | .subscript value slice _ => do
      let path ← Ev.lift (toPath value)
      let q ← Ev.lift (R.resolve m parent path)
      if q == (typingPath, ["Callable"]) then fromCallableItemS (E m parent) slice
      else Ev.raise .signatureNotFound
    | _ => Ev.raise (.typeError "expression")

/-- `_from_statement_node`, `/repo/paradigm/_core/signatures.py:269-310`. -/
def fromStatementS (R : Runtime) (E : Evaluator) : Nat → Stmt → Fn → Path → Path → Ev Obj Sig
  | 0, _, _, _, _ => Ev.raise .recursionError
  | n + 1, node, c, m, parent =>
    match node with
    | .annAssign _ annotation value => fromExpressionS R E n (value.getD annotation) c m parent
    | .assign _ value => fromExpressionS R E n value c m parent
    | .functionDef f => fromFunctionDefS R E f c m parent
    | _ => Ev.raise (.typeError "statement")

end

/-- `try: x except _SignatureNotFound: handler`; what `x` has changed stays. -/
def catchNotFound {α : Type} (x handler : Ev Obj α) : Ev Obj α := fun s =>
  match x s with
  | (.error .signatureNotFound, s) => handler s
  | r => r

/-- The loop of `_from_callable`, `/repo/paradigm/_core/signatures.py:396-408`. `_load_ast_nodes` and
`_from_signatures` are outside of the `try`. -/
def fromPathsS (R : Runtime) (E : Evaluator) (value : Fn) : List QPath → Ev Obj Sig
  | [] => Ev.raise .signatureNotFound
  | (m, object) :: paths => do
    let nodes ← Ev.lift (loadAstNodes R m object)
    let signatures ← catchNotFound
      (do
        let signatures ← Ev.each
          (fun node => fromStatementS R E R.depth node value m object.dropLast) nodes
        pure (some signatures))
      (pure none)
    match signatures with
    | none => fromPathsS R E value paths
    | some signatures => Ev.lift (fromSignatures signatures)

/-- `_from_callable`, `/repo/paradigm/_core/signatures.py:395-408`. -/
def fromFnS (R : Runtime) (E : Evaluator) (value : Fn) : Ev Obj Sig := do
  let paths ← Ev.lift (toQualifiedPaths R value)
  fromPathsS R E value paths

/-- `_from_callable(getattr(type(self), name)).bind(self)`,
`/repo/paradigm/_core/signatures.py:50-52,73-75,86-87`. -/
def fromInstanceS (R : Runtime) (E : Evaluator) (self : Obj) (attr : Except PyErr Fn) : Ev Obj Sig := do
  let attr ← Ev.lift attr
  let signature ← fromFnS R E attr
  Ev.lift (signature.bind [self] [])

/-- The body of the handler for classes, `/repo/paradigm/_core/signatures.py:111-122`. -/
def fromClassS (R : Runtime) (E : Evaluator) (f : Fn) : Ev Obj Sig := do
  let paths ← Ev.lift (resolveQualifiedPaths R f)
  if paths.isEmpty then Ev.raise .signatureNotFound
  else
    let q ← Ev.lift (resolveBuilder R paths)
    let nodes ← Ev.lift (loadAstNodes R q.1 q.2)
    let signatures ← Ev.each (fun node => fromStatementS R E R.depth node f q.1 q.2.dropLast) nodes
    Ev.lift (fromSignatures signatures)

/-- `from_callable` (`signature_from_callable`), `/repo/paradigm/_core/signatures.py:34-133`,
`/repo/paradigm/base.py:13-16`. -/
def fromCallableS (R : Runtime) (E : Evaluator) : Callable → Ev Obj Sig
  | .builtin owner qualname obj raw =>
    catchNotFound (match owner with
      | .none | .module _ _ | .type _ => fromFnS R E (.ofBuiltin owner qualname obj)
      | .instance self attr => fromInstanceS R E self attr) (Ev.lift (fromInspect raw))
  | .function l raw => catchNotFound (fromFnS R E (.ofFunction l)) (Ev.lift (fromInspect raw))
  | .method obj self raw =>
    catchNotFound (match self with
      | none => fromFnS R E (.ofMethod obj)
      | some (self, attr) => fromInstanceS R E self attr) (Ev.lift (fromInspect raw))
  | .methodWrapper self raw =>
    match self with
    | none => Ev.raise .assertionError
    | some (self, attr) => catchNotFound (fromInstanceS R E self attr) (Ev.lift (fromInspect raw))
  | .descriptor l raw => catchNotFound (fromFnS R E (.ofDescriptor l)) (Ev.lift (fromInspect raw))
  | .cls l raw =>
    catchNotFound (fromClassS R E (.ofClass l)) (Ev.lift (do
      let raw ← raw
      fromRawSignature { raw with returns := some selfObj }))
  | .partial_ func args keywords => do
    let signature ← fromCallableS R E func
    Ev.lift (signature.bind args keywords)
  | .other => Ev.raise (.typeError "not supported")

/-- The evaluator of `evaluation.py` over the stub tables, see `evaluateNode`. -/
def Runtime.evaluator (R : Runtime) (W : Interpreter Obj) (other : Atom → String) (n : Nat) : Evaluator :=
  evaluateNode W R.stubs R.depth other n

/-- `collect` is what has become of the caches when an evaluation starts: entries of those with weak
references (`/repo/paradigm/_core/arboreal/evaluation.py:302-305`) may have vanished. -/
def Evaluator.after (E : Evaluator) (collect : EvalState Obj → EvalState Obj) : Evaluator :=
  fun m parent e s => E m parent e (collect s)

/-- The results of calls of `signature_from_callable` one after the other. -/
def session (R : Runtime) (E : Evaluator) : List Callable → EvalState Obj → List (Except PyErr Sig)
  | [], _ => []
  | c :: cs, s =>
    let r := fromCallableS R E c s
    r.1 :: session R E cs r.2

end Paradigm
