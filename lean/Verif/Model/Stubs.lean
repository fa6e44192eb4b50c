import Verif.Model.Models
import Verif.Model.Syntax

/-!
# Reading stub files

Models the parsing half of `/repo/paradigm/_core/stubs.py` (`_StateParser`, `_resolve_object_path`,
`_parse_stub_scope`, `_collect_type_args`, the constructor of named tuples) and
`/repo/paradigm/_core/arboreal/utils.py`.

Python's tables are mutable and survive exceptions that are caught (`_to_qualified_path` catches
`_ObjectNotFound`), so that a computation is a function from tables to an outcome *and* tables.
-/

namespace Paradigm

/-! ### Trees -/

/-- The children of an expression node that are expressions, in the order of
`ast.iter_child_nodes`. Simplified: `ctx`, operator and `keyword` nodes are left out (the latter are
replaced by their values). -/
def Expr.children : Expr → List Expr
  | .name .. => []
  | .attribute value _ _ => [value]
  | .subscript value slice _ => [value, slice]
  | .tuple elts _ => elts
  | .list elts => elts
  | .call func args keywords => func :: args ++ keywords.map Prod.snd
  | .constant _ => []
  | .binOp left _ right => [left, right]
  | .other _ children => children

/-- The loop of `recursively_iterate_children`, `/repo/paradigm/_core/arboreal/utils.py:12-17`, on
nodes with the given children; the first argument bounds the number of iterations. -/
def iterateQueue {α : Type} (children : α → List α) : Nat → List α → List α
  | 0, _ => []
  | _ + 1, [] => []
  | n + 1, candidate :: candidates =>
    candidate :: iterateQueue children n (candidates ++ children candidate)

mutual
/-- The number of nodes of an expression. -/
def Expr.size : Expr → Nat
  | .name .. => 1
  | .attribute value _ _ => value.size + 1
  | .subscript value slice _ => value.size + slice.size + 1
  | .tuple elts _ => Expr.sizes elts + 1
  | .list elts => Expr.sizes elts + 1
  | .call func args keywords => func.size + Expr.sizes args + Expr.kwSizes keywords + 1
  | .constant _ => 1
  | .binOp left _ right => left.size + right.size + 1
  | .other _ children => Expr.sizes children + 1

def Expr.sizes : List Expr → Nat
  | [] => 0
  | e :: es => e.size + Expr.sizes es

def Expr.kwSizes : List (Option String × Expr) → Nat
  | [] => 0
  | (_, e) :: es => e.size + Expr.kwSizes es
end

/-- `recursively_iterate_children(node)`, `/repo/paradigm/_core/arboreal/utils.py:12-17`. There are
fewer descendants than the number given here as a bound (see `C49`). -/
def Expr.descendants (e : Expr) : List Expr :=
  iterateQueue Expr.children e.size e.children

/-- `is_dependency_name`, `/repo/paradigm/_core/arboreal/utils.py:49-51`: the name, if it is one. -/
def Expr.dependencyName : Expr → Option String
  | .name id true => some id
  | _ => none

/-- A set comprehension, kept as a list without repetitions in the order of first occurrence. Where the
iteration over a set of names can be observed, its order is a parameter (`StubFiles.order`,
`Interpreter.order`). -/
def dedup {α : Type} [BEq α] : List α → List α
  | [] => []
  | x :: xs => x :: (dedup xs).filter (fun y => !(y == x))

/-- The names in `{child.id for child in recursively_iterate_children(node) if
is_dependency_name(child)}`, `/repo/paradigm/_core/stubs.py:342-346`. -/
def Expr.dependencies (e : Expr) : List String :=
  dedup (e.descendants.filterMap Expr.dependencyName)

/-- `to_parent_module_path`, `/repo/paradigm/_core/arboreal/utils.py:20-37`. `module` is split at the
dots already; Python's `path[:depth]` with `depth or None`: zero takes everything, a negative number
counts from the end. -/
def toParentModulePath (isPackage : Path → Bool) (module : Option Path) (level : Nat)
    (m : Path) : Except PyErr Path :=
  if level = 0 then
    match module with
    | none => .error .assertionError
    | some module => .ok module
  else
    let depth : Int := (m.length : Int) + (if isPackage m then 1 else 0) - level
    let base :=
      if depth = 0 then m
      else if 0 < depth then m.take depth.toNat
      else m.take (m.length - depth.natAbs)
    .ok (base ++ module.getD [])

/-! ### State -/

/-- The tables handed around by `stubs.py` (`/repo/paradigm/_core/stubs.py:659-669`). `reads` is
bookkeeping of this model: the modules whose source was asked for, latest first. -/
structure ParseState where
  nodes : Dict Path (Dict Path (List Stmt)) := []
  kinds : Dict Path (Dict Path NodeKind) := []
  definitions : Dict Path Scope := []
  references : Dict Path (Dict Path QPath) := []
  submodules : Dict Path (List Path) := []
  superclasses : Dict Path (Dict Path (List QPath)) := []
  visited : List Path := []
  classesBases : Dict QPath (List Expr) := []
  generics : Dict QPath (List Path) := []
  reads : List Path := []

/-- A computation on the tables. -/
def P (α : Type) : Type := ParseState → Except PyErr α × ParseState

namespace P

/-- Running a computation. -/
def run {α : Type} (x : P α) (s : ParseState) : Except PyErr α × ParseState := x s

/-- `return value`. -/
protected def pure {α : Type} (a : α) : P α := fun s => (.ok a, s)

/-- One computation after the other; an exception ends it and keeps the tables as they are. -/
protected def bind {α β : Type} (x : P α) (f : α → P β) : P β := fun s =>
  match x s with
  | (.ok a, s) => f a s
  | (.error e, s) => (.error e, s)

instance : Monad P where
  pure := P.pure
  bind := P.bind

/-- `raise`. -/
def fail {α : Type} (e : PyErr) : P α := fun s => (.error e, s)

/-- A computation that does not touch the tables. -/
def lift {α : Type} (r : Except PyErr α) : P α := fun s => (r, s)

/-- Looking at the tables. -/
def get : P ParseState := fun s => (.ok s, s)

/-- Changing the tables. -/
def update (f : ParseState → ParseState) : P Unit := fun s => (.ok (), f s)

/-- `d[key]` for one of the tables. -/
def item {α β : Type} [BEq α] (d : ParseState → Dict α β) (key : α) : P β := fun s =>
  match (d s).lookup key with
  | none => (.error .keyError, s)
  | some v => (.ok v, s)

/-- `try: return x except _ObjectNotFound: return y`. -/
def orNotFound {α : Type} (x y : P α) : P α := fun s =>
  match x s with
  | (.error .objectNotFound, s) => y s
  | r => r

/-- `for x in xs: f(x)`. -/
def each {α : Type} (f : α → P Unit) : List α → P Unit
  | [] => P.pure ()
  | x :: xs => P.bind (f x) (fun _ => each f xs)

/-- `[f(x) for x in xs]`. -/
def map {α β : Type} (f : α → P β) : List α → P (List β)
  | [] => P.pure []
  | x :: xs => P.bind (f x) (fun y => P.bind (map f xs) (fun ys => P.pure (y :: ys)))

/-- `[x for x in xs if f(x)]`. -/
def filter {α : Type} (f : α → P Bool) : List α → P (List α)
  | [] => P.pure []
  | x :: xs => P.bind (f x) (fun b => P.bind (filter f xs) (fun ys =>
      P.pure (if b then x :: ys else ys)))

/-- `for x in xs: try: return f(x) except _ObjectNotFound: continue`, then `otherwise`. -/
def firstFound {α β : Type} (f : α → P β) (otherwise : P β) : List α → P β
  | [] => otherwise
  | x :: xs => orNotFound (f x) (firstFound f otherwise xs)

end P

/-- `d[key] = f(d.setdefault(key, default))`. -/
def dictUpdate {α β : Type} [BEq α] (d : Dict α β) (key : α) (default : β) (f : β → β) :
    Dict α β :=
  dictSet d key (f ((d.lookup key).getD default))

/-- `for part in path: scope = scope.setdefault(part, {})`,
`/repo/paradigm/_core/stubs.py:404-407`. -/
def Scope.add (scope : Scope) : Path → Scope
  | [] => scope
  | part :: path =>
    .mk (dictSet scope.entries part (((scope.get? part).getD (.mk [])).add path))

/-- What the parser asks of its surroundings: the parsed source of a stub module
(`sources.from_module_path`, `construction.from_source_path`), whether a module is a package
(`sources.is_package`) and the outcome of `if` tests: importing the objects their names were
resolved to and evaluating the test (`/repo/paradigm/_core/stubs.py:132-153,350-357`,
`/repo/paradigm/_core/arboreal/execution.py:8-24`, `construction.py:12-13,24-25`); and the order in which
Python visits the elements of a set of names (`stubs.py:342-346`), which depends on the hashes of texts. -/
structure StubFiles where
  source : Path → Option (List Stmt)
  isPackage : Path → Bool
  condition : Expr → List (String × QPath) → Except PyErr Bool
  order : List String → List String := fun names => names
  order_perm : ∀ names, (order names).Perm names := by exact fun _ => .refl _

/-- Where a `_StateParser` is: its module and the path of the enclosing class. -/
structure Place where
  module : Path
  parent : Path

/-! ### Updates of the tables -/

/-- `_add_ast_node`, `/repo/paradigm/_core/stubs.py:388-393`. -/
def addNode (c : Place) (path : Path) (node : Stmt) (s : ParseState) : ParseState :=
  { s with nodes := dictUpdate s.nodes c.module [] (fun d =>
      dictUpdate d (c.parent ++ path) [] (· ++ [node])) }

/-- `_add_ast_node_kind`, `/repo/paradigm/_core/stubs.py:395-398`. -/
def addKind (c : Place) (path : Path) (kind : NodeKind) (s : ParseState) : ParseState :=
  { s with kinds := dictUpdate s.kinds c.module [] (fun d => dictSet d (c.parent ++ path) kind) }

/-- `_add_name_definition`, `_add_path_definition`, `/repo/paradigm/_core/stubs.py:400-407`;
`self.scope_definitions` is the scope of the enclosing class within that of the module. -/
def addDefinition (c : Place) (path : Path) (s : ParseState) : ParseState :=
  { s with definitions := dictUpdate s.definitions c.module (.mk []) (·.add (c.parent ++ path)) }

/-- `_add_reference`, `/repo/paradigm/_core/stubs.py:409-414`. -/
def addReference (c : Place) (path : Path) (referent : QPath) (s : ParseState) : ParseState :=
  { s with references := dictUpdate s.references c.module [] (fun d => dictSet d path referent) }

/-- `_add_submodule`, `/repo/paradigm/_core/stubs.py:416-419`. -/
def addSubmodule (c : Place) (m : Path) (s : ParseState) : ParseState :=
  { s with submodules := dictUpdate s.submodules c.module [] (· ++ [m]) }

/-- `_add_superclass`, `/repo/paradigm/_core/stubs.py:421-428`. -/
def addSuperclass (m child : Path) (base : QPath) (s : ParseState) : ParseState :=
  { s with superclasses := dictUpdate s.superclasses m [] (fun d =>
      dictUpdate d child [] (· ++ [base])) }

/-- `class_bases.append(base)`, `/repo/paradigm/_core/stubs.py:313`. -/
def addBase (cls : QPath) (base : Expr) (s : ParseState) : ParseState :=
  { s with classesBases := dictUpdate s.classesBases cls [] (· ++ [base]) }

/-! ### Syntax -/

/-- `_unpack_ast_node`, `/repo/paradigm/_core/stubs.py:600-608`. Simplified: the assertion that a
tuple is in a load context always holds for a parsed subscript in a list of bases. -/
def unpack : Expr → List Expr
  | .tuple elts _ => elts
  | e => [e]

/-- One run through the candidates of `_collect_type_args`, `/repo/paradigm/_core/stubs.py:618-622`:
the queue (its end is the head of the list) and the arguments collected. -/
def collectStep : List Expr → List Expr → List Expr → List Expr × List Expr
  | [], queue, args => (queue, args)
  | .subscript _ slice _ :: candidates, queue, args => collectStep candidates (slice :: queue) args
  | candidate :: candidates, queue, args => collectStep candidates queue (args ++ [candidate])

/-- The loop of `_collect_type_args`, `/repo/paradigm/_core/stubs.py:615-622`; the first argument
bounds the number of iterations. -/
def collectLoop : Nat → List Expr → List Expr → List Expr
  | 0, _, args => args
  | _ + 1, [], args => args
  | n + 1, node :: queue, args =>
    let (queue, args) := collectStep (unpack node).reverse queue args
    collectLoop n queue args

/-- `_collect_type_args`, `/repo/paradigm/_core/stubs.py:611-625`. Each iteration takes one node of
the expression (see `C45`). -/
def collectTypeArgs : Expr → List Expr
  | .subscript value slice load =>
    (collectLoop (Expr.subscript value slice load).size [slice] []).reverse
  | _ => []

/-- `isinstance(child, AnnAssign)` children of a class body with their fields,
`/repo/paradigm/_core/stubs.py:98-102`. -/
def annotatedFields : List Stmt → List (Expr × Expr × Option Expr)
  | [] => []
  | .annAssign target annotation value :: body => (target, annotation, value) :: annotatedFields body
  | _ :: body => annotatedFields body

/-- `_ann_assign_to_arg`, `/repo/paradigm/_core/stubs.py:127-129` (the assertion at `:103-104` is the
same one). -/
def fieldArg : Expr × Expr × Option Expr → Except PyErr Arg
  | (.name id _, annotation, _) => .ok ⟨id, some annotation⟩
  | _ => .error .assertionError

/-- `_named_tuple_to_constructor_ast_node` and `_annotations_to_signature`,
`/repo/paradigm/_core/stubs.py:96-124`. -/
def namedTupleConstructor (name : String) (body : List Stmt) : Except PyErr FunctionDef := do
  let args ← mapExcept fieldArg (annotatedFields body)
  return { name := "__new__",
           args := { args := ⟨"cls", none⟩ :: args,
                     defaults := (annotatedFields body).filterMap (fun f => f.2.2) },
           returns := some (.name name true) }

/-- The call on the right of `x = f(...)` / `x: t = f(...)`,
`/repo/paradigm/_core/stubs.py:472-477`. -/
def assignedCall : Stmt → Option Expr
  | .annAssign _ _ (some (.call func _ _)) => some func
  | .assign _ (.call func _ _) => some func
  | _ => none

/-- The names bound by `import`, `/repo/paradigm/_core/stubs.py:362-371`. `split` is
`catalog.path_from_string`. -/
def importBindings (split : String → Path) (alias : Alias) : List (Path × QPath) :=
  match alias.asname with
  | none =>
    (List.range (split alias.name).length).map
      (fun i => ((split alias.name).take (i + 1), (split alias.name).take (i + 1), []))
  | some asname => [([asname], split alias.name, [])]

/-- `value.split('.')` on the characters of a text. -/
def splitDots : List Char → List (List Char)
  | [] => [[]]
  | c :: cs =>
    if c == '.' then [] :: splitDots cs
    else
      match splitDots cs with
      | [] => [[c]]
      | part :: parts => (c :: part) :: parts

/-- `catalog.path_from_string`, `/repo/paradigm/_core/catalog.py:13-15`. -/
def pathFromString (value : String) : Path := (splitDots value.toList).map String.ofList

/-! ### The parser -/

/-- `(typing, Generic)`. -/
def genericPath : QPath := (["typing"], ["Generic"])
/-- `(typing, Protocol)`. -/
def protocolPath : QPath := (["typing"], ["Protocol"])
/-- `(typing, NamedTuple)`. -/
def namedTuplePath : QPath := (["typing"], ["NamedTuple"])
/-- `(typing, TypeVar)`. -/
def typeVarPath : QPath := (["typing"], ["TypeVar"])

/-- The statements of `_resolve_object_path` after the parsed scope is at hand,
`/repo/paradigm/_core/stubs.py:430-440,526-561`; `resolve` is the recursive call. -/
def resolveIn (resolve : Path → Path → Path → P QPath) (defs : Scope) (m parent : Path)
    (head : String) (rest : Path) : P QPath :=
  if scopeContains defs (parent ++ [head]) then pure (m, parent ++ head :: rest)
  else if (defs.get? head).isSome then pure (m, head :: rest)
  else do
    let s ← P.get
    P.firstFound (fun sub => resolve sub [] (head :: rest)) (do
      let refs ← P.item ParseState.references m
      match longestReference refs (head :: rest) (rest.length + 1) with
      | some (k, rm, ro) => pure (rm, ro ++ (head :: rest).drop k)
      | none =>
        let builtins ← P.item ParseState.definitions builtinsPath
        if scopeContains builtins (head :: rest) then pure (builtinsPath, head :: rest)
        else P.fail .objectNotFound) ((s.submodules.lookup m).getD [])

/-- `_StateParser._to_qualified_path`, `/repo/paradigm/_core/stubs.py:442-449`. -/
def toQualified (resolve : Path → Path → Path → P QPath) (c : Place) (object : Path) : P QPath :=
  P.orNotFound (resolve c.module c.parent object) (do
    P.update (addDefinition c object)
    pure (c.module, object))

/-- `_StateParser._is_type_var_object_path`, `/repo/paradigm/_core/stubs.py:451-491`. -/
def isTypeVar (parse : Path → P Scope) (resolve : Path → Path → Path → P QPath) (c : Place)
    (object : Path) : P Bool := do
  let q ← toQualified resolve c object
  let _ ← parse q.1
  let nodes ← P.item ParseState.nodes q.1
  match nodes.lookup q.2 with
  | some [node] =>
    match (assignedCall node).bind toMaybePath with
    | none => pure false
    | some callable => do
      let r ← resolve q.1 [] callable
      pure (r == typeVarPath)
  | _ => pure false

/-- The body of the loop over the bases, `/repo/paradigm/_core/stubs.py:156-159,273-313`: the type variables
found. -/
def visitBase (parse : Path → P Scope) (resolve : Path → Path → Path → P QPath) (c : Place)
    (name : String) (body : List Stmt) (base : Expr) : P (List Path) :=
  let cls : QPath := (c.module, c.parent ++ [name])
  match base with
  | .subscript value _ _ => do
    let typeVars ← P.filter (isTypeVar parse resolve c)
      ((collectTypeArgs base).filterMap toMaybePath)
    match toMaybePath value with
    | none =>
      P.update (addBase cls base)
      pure typeVars
    | some origin =>
      let q ← resolve c.module c.parent origin
      if q == genericPath || q == protocolPath then pure typeVars
      else
        P.update (addBase cls base)
        pure typeVars
  | base => do
    let path ← P.lift (toPath base)
    let q ← toQualified resolve c path
    if q == namedTuplePath then
      let constructor ← P.lift (namedTupleConstructor name body)
      P.update (addNode c [name] (.functionDef constructor))
      P.update (addSuperclass c.module (c.parent ++ [name]) q)
      pure []
    else if q == protocolPath then pure []
    else if q == genericPath then P.fail .assertionError
    else
      P.update (addBase cls base)
      pure []

/-- `visit_ClassDef` up to the visit of the body, `/repo/paradigm/_core/stubs.py:253-318`. -/
def visitClassHead (parse : Path → P Scope) (resolve : Path → Path → Path → P QPath) (c : Place)
    (name : String) (bases : List Expr) (body : List Stmt) : P Unit := do
  P.update (addKind c [name] .class_)
  P.update (addDefinition c [name])
  P.update (fun s => { s with classesBases := dictSet s.classesBases (c.module, c.parent ++ [name]) [] })
  let typeVars ← P.map (visitBase parse resolve c name body) bases
  let parameters := dedup typeVars.flatten
  if parameters.isEmpty then pure ()
  else P.update (fun s =>
    { s with generics := dictSet s.generics (c.module, c.parent ++ [name]) parameters })

/-- `visit_AnnAssign`, `/repo/paradigm/_core/stubs.py:208-224`. -/
def visitAnnAssign (resolve : Path → Path → Path → P QPath) (c : Place) (node : Stmt)
    (target : Expr) (value : Option Expr) : P Unit := do
  let path ← P.lift (toPath target)
  match value.bind toMaybePath with
  | none =>
    P.update (addNode c path node)
    P.update (addKind c path .annotatedAssignment)
    P.update (addDefinition c path)
  | some valuePath =>
    let q ← toQualified resolve c valuePath
    P.update (addReference c path q)

/-- `visit_Assign`, `/repo/paradigm/_core/stubs.py:226-241`. -/
def visitAssign (resolve : Path → Path → Path → P QPath) (c : Place) (node : Stmt)
    (targets : List Expr) (value : Expr) : P Unit :=
  match toMaybePath value with
  | none => P.each (fun target => do
      let path ← P.lift (toPath target)
      P.update (addNode c path node)
      P.update (addKind c path .assignment)
      P.update (addDefinition c path)) targets
  | some valuePath => do
    let q ← toQualified resolve c valuePath
    P.each (fun target => do
      let path ← P.lift (toPath target)
      P.update (addReference c path q)) targets

/-- `visit_FunctionDef`, `visit_AsyncFunctionDef`, `/repo/paradigm/_core/stubs.py:243-247,334-338`. -/
def visitFunctionDef (c : Place) (f : FunctionDef) : P Unit := do
  P.update (addNode c [f.name] (.functionDef f))
  P.update (addKind c [f.name] (if f.isAsync then .asyncFunction else .function))
  P.update (addDefinition c [f.name])

/-- The condition of `visit_If`, `/repo/paradigm/_core/stubs.py:341-357`. -/
def evaluateTest (E : StubFiles) (resolve : Path → Path → Path → P QPath) (c : Place)
    (test : Expr) : P Bool := do
  let namespace_ ← P.map (fun name => do
    let q ← resolve c.module c.parent [name]
    pure (name, q)) (E.order test.dependencies)
  P.lift (E.condition test namespace_)

/-- `visit_Import`, `/repo/paradigm/_core/stubs.py:361-371`. -/
def visitImport (c : Place) (names : List Alias) : P Unit :=
  P.each (fun alias => P.each (fun b : Path × QPath => P.update (addReference c b.1 b.2))
    (importBindings pathFromString alias)) names

/-- `visit_ImportFrom`, `/repo/paradigm/_core/stubs.py:373-386`. -/
def visitImportFrom (E : StubFiles) (c : Place) (module : Option String) (names : List Alias)
    (level : Nat) : P Unit := do
  let m ← P.lift (toParentModulePath E.isPackage (module.map pathFromString) level c.module)
  P.each (fun alias : Alias =>
    if alias.name = "*" then P.update (addSubmodule c m)
    else
      P.update (addReference c
        (match alias.asname with
          | none => pathFromString alias.name
          | some asname => [asname]) (m, pathFromString alias.name))) names

mutual

/-- `_StateParser.visit`, `/repo/paradigm/_core/stubs.py:163-386`; the first argument is the number
of nested calls the interpreter still allows. Statements without a `visit_` method have their
children visited. -/
def visit (E : StubFiles) : Nat → Place → Stmt → P Unit
  | 0, _, _ => P.fail .recursionError
  | n + 1, c, node =>
    match node with
    | .annAssign target _ value => visitAnnAssign (resolveP E n) c node target value
    | .assign targets value => visitAssign (resolveP E n) c node targets value
    | .functionDef f => visitFunctionDef c f
    | .classDef name bases _ body => do
      visitClassHead (parseScope E n) (resolveP E n) c name bases body
      P.each (visit E n { module := c.module, parent := c.parent ++ [name] }) body
    | .ifStmt test body orelse => do
      let condition ← evaluateTest E (resolveP E n) c test
      P.each (visit E n c) (if condition then body else orelse)
    | .import_ names => visitImport c names
    | .importFrom module names level => visitImportFrom E c module names level
    | .other _ body => P.each (visit E n c) body

/-- `_resolve_object_path`, `/repo/paradigm/_core/stubs.py:498-561`. -/
def resolveP (E : StubFiles) : Nat → Path → Path → Path → P QPath
  | 0, _, _, _ => P.fail .recursionError
  | n + 1, m, parent, object =>
    match object with
    | [] => P.fail .indexError
    | head :: rest => do
      let defs ← parseScope E n m
      resolveIn (resolveP E n) defs m parent head rest

/-- `_parse_stub_scope`, `/repo/paradigm/_core/stubs.py:564-597`. -/
def parseScope (E : StubFiles) : Nat → Path → P Scope
  | 0, _ => P.fail .recursionError
  | n + 1, m => do
    let s ← P.get
    if s.visited.contains m then P.item ParseState.definitions m
    else
      P.update (fun s => { s with visited := m :: s.visited, reads := m :: s.reads })
      match E.source m with
      | none => P.fail .sourceNotFound
      | some body =>
        P.update (fun s => { s with
          definitions := dictSet s.definitions m (.mk [])
          kinds := dictSet s.kinds m []
          nodes := dictSet s.nodes m []
          references := dictSet s.references m [] })
        P.each (visit E n { module := m, parent := [] }) body
        P.item ParseState.definitions m

end

/-- The first part of `_parse_stubs_state`, `/repo/paradigm/_core/stubs.py:670-683`. -/
def parseAll (E : StubFiles) (n : Nat) (modules : List Path) : P Unit := do
  let _ ← parseScope E n builtinsPath
  P.each (fun m => do
    let _ ← parseScope E n m
    pure ()) modules

end Paradigm
