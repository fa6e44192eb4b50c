import Verif.Model.Stubs

/-!
# Evaluating annotations, defaults and stub-only objects

Models `/repo/paradigm/_core/arboreal/evaluation.py` and `/repo/paradigm/_core/namespacing.py`.

What Python itself does with objects is a parameter (`Interpreter`): importing, attributes, subscription,
calls, operators and making new objects. Objects are opaque.

Simplified:
* identity and later mutation of new objects is not modelled: making an object twice from the same
  parts gives the same object; the attributes given to a module and the annotations given to a class
  after it was made are recorded in `EvalState.given`;
* `objects_cache` and `modules_cache` hold weak references; here their entries do not vanish while an
  annotation is evaluated (see `Evaluator.after` for what happens in between);
* the source path given to `compile` (`evaluation.py:170-173`) only shows up in tracebacks;
* what happens on Python 3.8 and older (`evaluation.py:433-467`) is left out.
-/

namespace Paradigm

/-- What Python does with objects of type `V`. -/
structure Interpreter (V : Type) where
  /-- `importlib.import_module`; `none` for `ImportError`. -/
  importModule : Path → Except PyErr (Option V)
  /-- `getattr(value, name)`. -/
  getattr : V → String → Except PyErr V
  /-- `value[item]`. -/
  getitem : V → V → Except PyErr V
  /-- `function(*args, **kwargs)`; a key `none` is `None`. -/
  call : V → List V → List (Option String × V) → Except PyErr V
  /-- `operator.neg`, `operator.pos`, given by the class of the node. -/
  unary : String → V → Except PyErr V
  /-- `operator.and_`, `operator.or_`, `operator.xor`, given by the class of the node. -/
  binary : String → V → V → Except PyErr V
  /-- `typing.Union[left, right]`. -/
  union : V → V → Except PyErr V
  /-- The value of a constant. -/
  constant : Atom → V
  tuple : List V → V
  list : List V → V
  /-- A dictionary display; keys may fail to be hashable. -/
  dict : List (V × V) → Except PyErr V
  /-- `typing.ForwardRef(text)`. -/
  forwardRef : String → Except PyErr V
  /-- `types.ModuleType(name)`. -/
  newModule : Path → V
  /-- `types.new_class(name, bases, exec_body=lambda namespace: namespace.update(members))`. -/
  newClass : Path → List V → Dict String V → Except PyErr V
  /-- Executing a `def` statement: the object its name is bound to afterwards. -/
  define : FunctionDef → Dict String V → Except PyErr V
  /-- The order in which the elements of a set of names are visited. -/
  order : List String → List String := fun names => names
  order_perm : ∀ names, (order names).Perm names := by exact fun _ => .refl _

/-- What an evaluation changes: the namespace at hand (`parent_namespace`; of a `ChainMap` the first
mapping is `ns`, the other one `back`), the cache of assignments (`evaluation.py:219`), the caches of
`evaluate_qualified_path` (`:302-305`) and what was given to modules and classes after they were
made. -/
structure EvalState (V : Type) where
  ns : Dict String V := []
  back : Dict String V := []
  assigned : Dict QPath V := []
  objects : Dict QPath V := []
  modules : Dict Path V := []
  given : List (V × String × V) := []
  /-- The time, as far as the collection of garbage depends on it. -/
  clock : Nat := 0

/-- A computation that changes the state and raises or returns. -/
def Ev (V α : Type) : Type := EvalState V → Except PyErr α × EvalState V

namespace Ev

variable {V α β : Type}

def pure (a : α) : Ev V α := fun s => (.ok a, s)

def bind (x : Ev V α) (f : α → Ev V β) : Ev V β := fun s =>
  match x s with
  | (.ok a, s) => f a s
  | (.error e, s) => (.error e, s)

instance : Monad (Ev V) where
  pure := Ev.pure
  bind := Ev.bind

def raise (e : PyErr) : Ev V α := fun s => (.error e, s)

/-- Something that does not touch the state. -/
def lift (x : Except PyErr α) : Ev V α := fun s => (x, s)

def get : Ev V (EvalState V) := fun s => (.ok s, s)

def modify (f : EvalState V → EvalState V) : Ev V Unit := fun s => (.ok (), f s)

/-- `[f(x) for x in xs]`. -/
def each (f : α → Ev V β) : List α → Ev V (List β)
  | [] => pure []
  | x :: xs => do
    let y ← f x
    let ys ← each f xs
    pure (y :: ys)

/-- Runs a computation with its own namespace (and mapping behind it), which is returned too. -/
def within (ns back : Dict String V) (x : Ev V α) : Ev V (α × Dict String V) := fun s =>
  match x { s with ns := ns, back := back } with
  | (.ok a, t) => (.ok (a, t.ns), { t with ns := s.ns, back := s.back })
  | (.error e, t) => (.error e, { t with ns := s.ns, back := s.back })

end Ev

/-- `d[key] = value`. -/
def dictPut {α β : Type} [BEq α] (key : α) (value : β) : Dict α β → Dict α β
  | [] => [(key, value)]
  | (k, v) :: d => if k == key then (k, value) :: d else (k, v) :: dictPut key value d

/-- `parent_namespace[name] = value`. -/
def putName {V : Type} (name : String) (value : V) : Ev V Unit :=
  Ev.modify fun s => { s with ns := dictPut name value s.ns }

/-- `d[key]`. -/
def getKey {α β : Type} [BEq α] (d : Dict α β) (key : α) : Except PyErr β :=
  match d.lookup key with
  | some v => .ok v
  | none => .error .keyError

/-- `namespacing.search`, `/repo/paradigm/_core/namespacing.py:15-19`. -/
def searchObject {V : Type} (W : Interpreter V) (value : V) : Path → Except PyErr V
  | [] => .ok value
  | name :: names =>
    match W.getattr value name with
    | .ok value => searchObject W value names
    | .error .attributeError => .error .objectNotFound
    | .error e => .error e

/-- `evaluate_operator_node` of a unary operator, `evaluation.py:48-62`. -/
def unaryOperator (op : String) : Except PyErr Unit :=
  if op = "USub" ∨ op = "UAdd" then .ok () else .error (.typeError "operator")

/-- `evaluate_operator_node` of a binary operator, `evaluation.py:48-52,102-114`. -/
def binaryOperator (op : String) : Except PyErr Unit :=
  if op = "BitAnd" ∨ op = "BitOr" ∨ op = "BitXor" then .ok () else .error (.typeError "operator")

/-- The value of `left op right` and the fallback to a union, `evaluation.py:254-258`: an operator
without a handler raises `TypeError` as well. -/
def evalBinary {V : Type} (W : Interpreter V) (op : String) (left right : V) : Except PyErr V :=
  match (match binaryOperator op with
    | .ok () => W.binary op left right
    | .error e => .error e) with
  | .ok v => .ok v
  | .error (.typeError tag) =>
    if op = "BitOr" then W.union left right else .error .assertionError
  | .error e => .error e

/-- `value[item]` and the fallback to `value`, `evaluation.py:479-482`. -/
def evalItem {V : Type} (W : Interpreter V) (value item : V) : Except PyErr V :=
  match W.getitem value item with
  | .ok v => .ok v
  | .error (.typeError _) => .ok value
  | .error e => .error e

/-- The keyword arguments as a dictionary, `evaluation.py:125-129`: a later `**` replaces the value of
an earlier one. -/
def kwargsOf {V : Type} (kws : List (Option String × V)) : List (Option String × V) :=
  kws.foldl (fun d kv => dictPut kv.1 kv.2 d) []

section

variable {V : Type} (W : Interpreter V) (T : Stubs) (depth : Nat) (look : QPath → Ev V V)

/-- `scoping.resolve_object_path` applied to the stub tables; `depth` is the number of nested calls
the interpreter allows. -/
def evResolve (m parent object : Path) : Ev V QPath :=
  Ev.lift (resolve T.toTables depth m parent object [])

mutual

/-- `evaluate_expression_node`, `/repo/paradigm/_core/arboreal/evaluation.py:32-37` and the functions
registered with it, `evaluation.py:65-73,79-99,117-130,182-209,245-292,470-482`. `look` is `evaluate_qualified_path` in the namespace at hand.
Unary operators are `.other "UnaryOp <class of the operator>" [operand]`; dictionaries without `**` are
`.other "Dict"` of keys and values in turn, those with `**` are `.other "Dict**"`. -/
def evalExpr (m parent : Path) : Expr → Ev V V
  | .name id load =>
    if !load then Ev.raise .assertionError
    else do
      let q ← evResolve T depth m parent [id]
      look q
  | .attribute value attr load =>
    if !load then Ev.raise .assertionError
    else do
      let v ← evalExpr m parent value
      match W.getattr v attr with
      | .ok v => Ev.pure v
      | .error .attributeError => do
        let path ← Ev.lift (toPath (.attribute value attr load))
        let q ← evResolve T depth m parent path
        look q
      | .error e => Ev.raise e
  | .subscript value slice load =>
    if !load then Ev.raise .assertionError
    else do
      let v ← evalExpr m parent value
      let i ← evalExpr m parent slice
      Ev.lift (evalItem W v i)
  | .tuple elts load =>
    if !load then Ev.raise .assertionError
    else do
      let vs ← evalExprs m parent elts
      Ev.pure (W.tuple vs)
  | .list elts => do
    let vs ← evalExprs m parent elts
    Ev.pure (W.list vs)
  | .call func args keywords => do
    let args ← evalExprs m parent args
    let kwargs ← evalKeywords m parent keywords
    let f ← evalExpr m parent func
    Ev.lift (W.call f args (kwargsOf kwargs))
  | .constant value => Ev.pure (W.constant value)
  | .binOp left op right => do
    let l ← evalExpr m parent left
    let r ← evalExpr m parent right
    Ev.lift (evalBinary W op l r)
  | .other tag children =>
    if tag = "UnaryOp USub" ∨ tag = "UnaryOp UAdd" then
      match children with
      | [operand] => do
        let v ← evalExpr m parent operand
        Ev.lift (W.unary tag v)
      | _ => Ev.raise (.typeError "node")
    else if tag = "Dict" then do
      let entries ← evalEntries m parent children
      Ev.lift (W.dict entries)
    else if tag = "Dict**" then Ev.raise .assertionError
    else Ev.raise (.typeError "node")

/-- A list of expressions in order. -/
def evalExprs (m parent : Path) : List Expr → Ev V (List V)
  | [] => Ev.pure []
  | e :: es => do
    let v ← evalExpr m parent e
    let vs ← evalExprs m parent es
    Ev.pure (v :: vs)

/-- The keyword arguments of a call in order. -/
def evalKeywords (m parent : Path) :
    List (Option String × Expr) → Ev V (List (Option String × V))
  | [] => Ev.pure []
  | (k, e) :: es => do
    let v ← evalExpr m parent e
    let vs ← evalKeywords m parent es
    Ev.pure ((k, v) :: vs)

/-- The entries of a dictionary display, `evaluation.py:91-99`. -/
def evalEntries (m parent : Path) : List Expr → Ev V (List (V × V))
  | k :: v :: es => do
    let key ← evalExpr m parent k
    let value ← evalExpr m parent v
    let entries ← evalEntries m parent es
    Ev.pure ((key, value) :: entries)
  | _ => Ev.pure []

end

/-- `conversion.to_names` of a target, `/repo/paradigm/_core/arboreal/conversion.py:37-40`. -/
def targetName : Expr → Except PyErr String
  | .name id load => if load then .error .assertionError else .ok id
  | _ => .error (.typeError "to_names")

/-- The loop over the targets, `evaluation.py:226-239`: the first cached value, the targets before it
being bound to a forward reference; `none` if there is none. -/
def cachedTarget : List QPath → Ev V (Option V)
  | [] => Ev.pure none
  | q :: qs => do
    let s ← Ev.get
    match s.assigned.lookup q with
    | some v => Ev.pure (some v)
    | none =>
      let v ← Ev.lift (W.forwardRef (".".intercalate q.2))
      Ev.modify fun s => { s with assigned := dictPut q v s.assigned }
      cachedTarget qs

/-- An assignment, `evaluation.py:212-242`; without a value there is no handler for `None`. -/
def evalAssign (m parent : Path) (targets : List Expr) (value : Option Expr) : Ev V V := do
  let names ← Ev.each (fun t => Ev.lift (targetName t)) targets
  let paths ← Ev.each (fun name => evResolve T depth m parent [name]) names
  let cached ← cachedTarget W paths
  let result ← match cached with
    | some v => Ev.pure v
    | none =>
      match value with
      | none => Ev.raise (.typeError "node")
      | some e => evalExpr W T depth look m parent e
  Ev.modify fun s =>
    { s with assigned := paths.foldl (fun d q => dictPut q result d) s.assigned }
  Ev.pure result

end

/-! ### Postponed annotations -/

/-- `str(value)` of a constant; `other` is the text of the remaining ones (numbers with fractions,
bytes). -/
def Atom.text (other : Atom → String) : Atom → String
  | .none => "None"
  | .ellipsis => "Ellipsis"
  | .notImplemented => "NotImplemented"
  | .bool true => "True"
  | .bool false => "False"
  | .int i => toString i
  | .str s => s
  | a => other a

/-- `to_str` of an operator, `/repo/paradigm/_core/arboreal/conversion.py:128-140`. -/
def operatorText (op : String) : Except PyErr String :=
  if op = "BitOr" then .ok "|"
  else if op = "BitAnd" then .ok "&"
  else if op = "BitXor" then .ok "^"
  else .error (.typeError "to_str")

/-- `to_str` of a tuple of texts, `conversion.py:178-180`. -/
def tupleText : List String → String
  | [t] => "(" ++ t ++ ",)"
  | ts => "(" ++ ", ".intercalate ts ++ ")"

mutual

/-- `conversion.to_str`, `/repo/paradigm/_core/arboreal/conversion.py:118-208` (Python 3.10 and
newer). -/
def toStr (other : Atom → String) : Expr → Except PyErr String
  | .name id _ => .ok id
  | .attribute value attr _ =>
    match toStr other value with
    | .ok t => .ok (t ++ "." ++ attr)
    | .error e => .error e
  | .subscript value slice _ =>
    match toStr other value with
    | .ok t =>
      match toStr other slice with
      | .ok u => .ok (t ++ "[" ++ u ++ "]")
      | .error e => .error e
    | .error e => .error e
  | .tuple elts _ =>
    match toStrs other elts with
    | .ok ts => .ok (tupleText ts)
    | .error e => .error e
  | .list elts =>
    match toStrs other elts with
    | .ok ts => .ok ("[" ++ ", ".intercalate ts ++ "]")
    | .error e => .error e
  | .constant value => .ok (value.text other)
  | .binOp left op right =>
    match toStr other left with
    | .ok l =>
      match toStr other right with
      | .ok r =>
        match operatorText op with
        | .ok o => .ok (l ++ " " ++ o ++ " " ++ r)
        | .error e => .error e
      | .error e => .error e
    | .error e => .error e
  | .other tag children =>
    if tag = "UnaryOp USub" ∨ tag = "UnaryOp UAdd" then
      match children with
      | [operand] =>
        match toStr other operand with
        | .ok t => .ok ((if tag = "UnaryOp USub" then "-" else "+") ++ "(" ++ t ++ ")")
        | .error e => .error e
      | _ => .error (.typeError "to_str")
    else .error (.typeError "to_str")
  | .call .. => .error (.typeError "to_str")

def toStrs (other : Atom → String) : List Expr → Except PyErr (List String)
  | [] => .ok []
  | e :: es =>
    match toStr other e with
    | .ok t =>
      match toStrs other es with
      | .ok ts => .ok (t :: ts)
      | .error e => .error e
    | .error e => .error e

end

/-- `ast.Str(conversion.to_str(node))`, `evaluation.py:140,146,154`. -/
def lazyExpr (other : Atom → String) : Option Expr → Except PyErr (Option Expr)
  | none => .ok none
  | some e =>
    match toStr other e with
    | .ok t => .ok (some (.constant (.str t)))
    | .error e => .error e

/-- `_LazyEvaluator.visit_arg`, `evaluation.py:150-155`. -/
def lazyArg (other : Atom → String) (a : Arg) : Except PyErr Arg :=
  match lazyExpr other a.annotation with
  | .ok annotation => .ok { a with annotation := annotation }
  | .error e => .error e

def lazyArgOption (other : Atom → String) : Option Arg → Except PyErr (Option Arg)
  | none => .ok none
  | some a =>
    match lazyArg other a with
    | .ok a => .ok (some a)
    | .error e => .error e

/-- `_LazyEvaluator.visit_FunctionDef`, `visit_AsyncFunctionDef`, `evaluation.py:135-148`: the returns
first, then the arguments in the order of `ast.arguments._fields`. Simplified: no `lambda` (whose
arguments would be rebuilt) occurs in defaults and decorators. -/
def lazyFunction (other : Atom → String) (f : FunctionDef) : Except PyErr FunctionDef := do
  let returns ← lazyExpr other f.returns
  let posonlyargs ← mapExcept (lazyArg other) f.args.posonlyargs
  let args ← mapExcept (lazyArg other) f.args.args
  let vararg ← lazyArgOption other f.args.vararg
  let kwonlyargs ← mapExcept (lazyArg other) f.args.kwonlyargs
  let kwarg ← lazyArgOption other f.args.kwarg
  return { f with
    returns := returns
    args := { f.args with
      posonlyargs := posonlyargs, args := args, vararg := vararg,
      kwonlyargs := kwonlyargs, kwarg := kwarg } }

/-- `_to_lazy_statement`, `evaluation.py:158-160`, on the statements stored for stub objects. -/
def lazyStmt (other : Atom → String) : Stmt → Except PyErr Stmt
  | .functionDef f =>
    match lazyFunction other f with
    | .ok f => .ok (.functionDef f)
    | .error e => .error e
  | s => .ok s

/-! ### Statements and stub objects -/

/-- The expressions right below a statement stored for a stub object. -/
def Stmt.roots : Stmt → List Expr
  | .annAssign target annotation value => target :: annotation :: value.toList
  | .assign targets value => targets ++ [value]
  | .functionDef f =>
    (f.args.posonlyargs ++ f.args.args ++ f.args.vararg.toList ++ f.args.kwonlyargs
      ++ f.args.kwarg.toList).filterMap Arg.annotation
    ++ f.args.kwDefaults.filterMap id ++ f.args.defaults ++ f.decorators ++ f.returns.toList
  | _ => []

/-- The names in `{child.id for child in recursively_iterate_children(node) if
is_dependency_name(child)}`, `evaluation.py:373-379`. -/
def Stmt.dependencies (s : Stmt) : List String :=
  dedup ((s.roots.flatMap fun e => e :: e.descendants).filterMap Expr.dependencyName)

section

variable {V : Type} (W : Interpreter V) (T : Stubs) (depth : Nat) (other : Atom → String)
  (look : QPath → Ev V V)

/-- `evaluate_statement_node`, `/repo/paradigm/_core/arboreal/evaluation.py:40-45,163-179,212-242`. A
`def` statement is executed in a copy of the namespace. -/
def evalStmt (m parent : Path) : Stmt → Ev V V
  | .annAssign target _ value => evalAssign W T depth look m parent [target] value
  | .assign targets value => evalAssign W T depth look m parent targets (some value)
  | .functionDef f => do
    let f ← Ev.lift (lazyFunction other f)
    let s ← Ev.get
    let v ← Ev.lift (W.define f (s.ns ++ s.back))
    putName f.name v
    Ev.pure v
  | _ => Ev.raise (.typeError "statement")

/-- The evaluation of an object that is not a class, `evaluation.py:343-352`: the value of the last
node. Without nodes `value` is unbound. -/
def evalNodes (m path : Path) : Option V → List Stmt → Ev V V
  | none, [] => Ev.raise .nameError
  | some v, [] => Ev.pure v
  | _, node :: nodes => do
    let v ← evalStmt W T depth other look m path.dropLast node
    putName (path.getLast?.getD "") v
    evalNodes m path (some v) nodes

/-- `isinstance(ast_node, ast.AnnAssign) and ast_node.value is None`, with the annotation,
`evaluation.py:365-367`. -/
def bareAnnotation : Stmt → Option Expr
  | .annAssign _ annotation none => some annotation
  | _ => none

/-- `__name__` of the module `evaluation.py`. -/
def evaluationName : String := "paradigm._core.arboreal.evaluation"

/-- The loop over the dependencies of a definition, `evaluation.py:373-395`; the namespace at hand is
`module_namespace`. -/
def evalDependencies (m path : Path) : List String → Ev V Unit
  | [] => Ev.pure ()
  | name :: names => do
    let q ← evResolve T depth m path [name]
    if q.1 ≠ builtinsPath then do
      let v ← look q
      putName name v
      evalDependencies m path names
    else evalDependencies m path names

/-- The loop over the definitions of a member, `evaluation.py:372-399`, with the two namespaces; the
value of the last definition, if there is one. -/
def evalDefinitions (m path : Path) : Option V → List Stmt → Dict String V → Dict String V →
    Ev V (Option V × Dict String V × Dict String V)
  | value, [], cls, mod => Ev.pure (value, cls, mod)
  | _, node :: nodes, cls, mod => do
    let node ← Ev.lift (lazyStmt other node)
    let ((), mod) ← Ev.within mod [] (evalDependencies T depth look m path (W.order node.dependencies))
    let (v, cls) ← Ev.within cls mod (evalStmt W T depth other look m path node)
    evalDefinitions m path (some v) nodes cls mod

/-- The loop over the names of the class, `evaluation.py:359-401`: the two namespaces and
`annotations_nodes`. -/
def evalMembers (m path : Path) (nodes : Dict Path (List Stmt)) : List String →
    Dict String V → Dict String V → Dict String Expr →
    Ev V (Dict String V × Dict String V × Dict String Expr)
  | [], cls, mod, anns => Ev.pure (cls, mod, anns)
  | name :: names, cls, mod, anns => do
    let stmts ← Ev.lift (getKey nodes (path ++ [name]))
    let anns := (stmts.filterMap bareAnnotation).foldl (fun d e => dictPut name e d) anns
    let (value, cls, mod) ← evalDefinitions W T depth other look m path none
      (stmts.filter fun s => (bareAnnotation s).isNone) cls mod
    let cls := match value with
      | some v => dictPut name v cls
      | none => cls
    evalMembers m path nodes names cls mod anns

/-- `scope = stubs.definitions[module_path]; for part in object_path: scope = scope[part]`,
`evaluation.py:353-355`. -/
def scopeAt (scope : Scope) : Path → Except PyErr Scope
  | [] => .ok scope
  | part :: path =>
    match scope.get? part with
    | none => .error .keyError
    | some scope => scopeAt scope path

/-- The names of a scope, `scope.keys()`. -/
def Scope.names (scope : Scope) : List String := scope.entries.map Prod.fst

/-- The evaluation of the bare annotations, `evaluation.py:422-428`. -/
def evalAnnotations (m path : Path) (cls : V) : Dict String Expr → Ev V (Dict String V)
  | [] => Ev.pure []
  | (name, e) :: es => do
    let v ← evalExpr W T depth look m path e
    let vs ← evalAnnotations m path cls es
    Ev.pure ((name, v) :: vs)

/-- The evaluation of a class, `evaluation.py:353-430`. -/
def evalClass (m path : Path) (nodes : Dict Path (List Stmt)) : Ev V V := do
  let defs ← Ev.lift (getKey T.definitions m)
  let scope ← Ev.lift (scopeAt defs path)
  let text := W.constant (.str evaluationName)
  let (cls, mod, anns) ← evalMembers W T depth other look m path nodes scope.names
    [("__module__", text)] [("__name__", text)] []
  let (bases, _) ← Ev.within mod [] (Ev.each look
    (((T.superclasses.lookup m).getD []).lookup path |>.getD []))
  let cls ← if anns.isEmpty then Ev.pure cls
    else do
      let d ← Ev.lift (W.dict [])
      Ev.pure (dictPut "__annotations__" d cls)
  let v ← Ev.lift (W.newClass path bases cls)
  Ev.modify fun s => { s with objects := dictPut (m, path) v s.objects }
  putName (path.getLast?.getD "") v
  if anns.isEmpty then Ev.pure v
  else do
    let vs ← evalAnnotations W T depth look m path v anns
    Ev.modify fun s => { s with given := s.given ++ vs.map fun kv => (v, kv) }
    Ev.pure v

/-- `evaluate_qualified_path` from `evaluation.py:332` on. -/
def evalStub (m path : Path) : Ev V V := do
  let s ← Ev.get
  match s.objects.lookup (m, path) with
  | some v => Ev.pure v
  | none => do
    let nodes ← Ev.lift (getKey T.rawAstNodes m)
    let kinds ← Ev.lift (getKey T.nodesKinds m)
    let kind ← Ev.lift (getKey kinds path)
    match nodes.lookup path with
    | none =>
      if kind ≠ .class_ then Ev.raise .assertionError
      else evalClass W T depth other look m path nodes
    | some stmts =>
      if kind ≠ .class_ then evalNodes W T depth other look m path none stmts
      else evalClass W T depth other look m path nodes

/-- The loop filling a module that cannot be imported, `evaluation.py:319-323`. -/
def evalNames (m : Path) (module : V) : List String → Ev V Unit
  | [] => Ev.pure ()
  | name :: names => do
    let v ← look (m, [name])
    putName name v
    Ev.modify fun s => { s with given := s.given ++ [(module, name, v)] }
    evalNames m module names

end

/-- `evaluate_qualified_path`, `/repo/paradigm/_core/arboreal/evaluation.py:295-430`. The number is how
many nested calls of it the interpreter still allows. -/
def evalPath {V : Type} (W : Interpreter V) (T : Stubs) (depth : Nat) (other : Atom → String) :
    Nat → QPath → Ev V V
  | 0, _ => Ev.raise .recursionError
  | n + 1, (m, path) => do
    match ← Ev.lift (W.importModule m) with
    | none =>
      if path.isEmpty then do
        let s ← Ev.get
        match s.modules.lookup m with
        | some v => Ev.pure v
        | none => do
          let module := W.newModule m
          Ev.modify fun s => { s with modules := dictPut m module s.modules }
          let scope ← Ev.lift (getKey T.definitions m)
          evalNames (evalPath W T depth other n) m module scope.names
          Ev.pure module
      else evalStub W T depth other (evalPath W T depth other n) m path
    | some module =>
      match searchObject W module path with
      | .ok v => Ev.pure v
      | .error .objectNotFound => evalStub W T depth other (evalPath W T depth other n) m path
      | .error e => Ev.raise e

/-- A call `evaluate_expression_node(node, module_path, parent_path, {})` as made by `signatures.py`
(`/repo/paradigm/_core/signatures.py:237-264,358-359,574-579`), with what it leaves behind. -/
def evaluateNode {V : Type} (W : Interpreter V) (T : Stubs) (depth : Nat) (other : Atom → String) (n : Nat)
    (m parent : Path) (e : Expr) : Ev V V := fun s =>
  evalExpr W T depth (evalPath W T depth other n) m parent e { s with ns := [], back := [] }

/-- The state when the module `evaluation.py` was just imported, `evaluation.py:219,302-305`. -/
def initialEval {V : Type} (self : V) : EvalState V :=
  { objects := [((["_typeshed"], ["Self"]), self)] }

end Paradigm
