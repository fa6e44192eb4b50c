import Verif.Model.Stubs

/-!
# Specialised generic base classes

Models the second half of `_parse_stubs_state` (`/repo/paradigm/_core/stubs.py:628-646,684-700,
703-972`) and `to_names`, `to_identifier` of `/repo/paradigm/_core/arboreal/conversion.py:12-104`.

After all stub files are parsed, the bases of every class are resolved. A base `G[args]` gets a
class of its own in the module `__specializations`, whose members are those of `G` with the type
parameters of `G` replaced.
-/

namespace Paradigm

/-! ### Syntax -/

/-- `to_identifier` of the operators, `/repo/paradigm/_core/arboreal/conversion.py:67-79`. Operators
are given by the name of their class. -/
def opIdentifier (op : String) : Except PyErr String :=
  if op = "BitAnd" then .ok "bitand"
  else if op = "BitOr" then .ok "bitor"
  else if op = "BitXor" then .ok "bitxor"
  else .error (.typeError "to_identifier")

mutual

/-- `conversion.to_identifier`, `/repo/paradigm/_core/arboreal/conversion.py:43-104`. `rep` is `repr`
of the constants. -/
def toIdentifier (rep : Atom → String) : Expr → Except PyErr String
  | .subscript value slice load =>
    if !load then .error .assertionError
    else do
      let value ← toIdentifier rep value
      let slice ← toIdentifier rep slice
      return value ++ "_getitem_" ++ slice
  | .constant value => .ok (rep value)
  | .binOp left op right => do
    let left ← toIdentifier rep left
    let op ← opIdentifier op
    let right ← toIdentifier rep right
    return left ++ "_" ++ op ++ "_" ++ right
  | .tuple elts load =>
    if !load then .error .assertionError
    else do
      let elts ← toIdentifiers rep elts
      return String.intercalate "_" elts
  | .name id load => if load then .ok id else .error .assertionError
  | .attribute value attr load =>
    if !load then .error .assertionError
    else do
      let value ← toIdentifier rep value
      return value ++ "_" ++ attr
  | .list _ => .error (.typeError "to_identifier")
  | .call .. => .error (.typeError "to_identifier")
  | .other .. => .error (.typeError "to_identifier")

/-- `to_identifier(element) for element in ast_node.elts`,
`/repo/paradigm/_core/arboreal/conversion.py:92`. -/
def toIdentifiers (rep : Atom → String) : List Expr → Except PyErr (List String)
  | [] => .ok []
  | e :: es => do
    let e ← toIdentifier rep e
    let es ← toIdentifiers rep es
    return e :: es

end

/-- `to_names` of an assignment's target, `/repo/paradigm/_core/arboreal/conversion.py:12-14,37-40`. -/
def targetNames : Expr → Except PyErr (List String)
  | .name id load => if load then .error .assertionError else .ok [id]
  | _ => .error (.typeError "to_names")

/-- `conversion.to_names`, `/repo/paradigm/_core/arboreal/conversion.py:12-40`. -/
def toNames : Stmt → Except PyErr (List String)
  | .functionDef f => .ok [f.name]
  | .classDef name _ _ _ => .ok [name]
  | .annAssign target _ _ => targetNames target
  | .assign targets _ => do
    let names ← mapExcept targetNames targets
    return names.flatten
  | _ => .error (.typeError "to_names")

mutual

/-- `_SpecializeGeneric.visit` on expressions, `/repo/paradigm/_core/stubs.py:628-646`; classes
without a `visit_` method have their children visited. -/
def specialize (table : Dict Path Expr) : Expr → Except PyErr Expr
  | .name id load =>
    if !load then .ok (.name id load)
    else
      match table.lookup [id] with
      | none => .ok (.name id load)
      | some candidate => .ok candidate
  | .attribute value attr load =>
    if !load then .ok (.attribute value attr load)
    else
      match toPath (.attribute value attr load) with
      | .error e => .error e
      | .ok path =>
        match table.lookup path with
        | none => .ok (.attribute value attr load)
        | some candidate => .ok candidate
  | .subscript value slice load => do
    let value ← specialize table value
    let slice ← specialize table slice
    return .subscript value slice load
  | .tuple elts load => do
    let elts ← specializeAll table elts
    return .tuple elts load
  | .list elts => do
    let elts ← specializeAll table elts
    return .list elts
  | .call func args keywords => do
    let func ← specialize table func
    let args ← specializeAll table args
    let keywords ← specializeKeywords table keywords
    return .call func args keywords
  | .constant value => .ok (.constant value)
  | .binOp left op right => do
    let left ← specialize table left
    let right ← specialize table right
    return .binOp left op right
  | .other tag children => do
    let children ← specializeAll table children
    return .other tag children

/-- The visits of a list of nodes. -/
def specializeAll (table : Dict Path Expr) : List Expr → Except PyErr (List Expr)
  | [] => .ok []
  | e :: es => do
    let e ← specialize table e
    let es ← specializeAll table es
    return e :: es

/-- The visits of keyword arguments. -/
def specializeKeywords (table : Dict Path Expr) :
    List (Option String × Expr) → Except PyErr (List (Option String × Expr))
  | [] => .ok []
  | (name, e) :: es => do
    let e ← specialize table e
    let es ← specializeKeywords table es
    return (name, e) :: es

end

/-- The visit of an optional node. -/
def specializeOption (table : Dict Path Expr) : Option Expr → Except PyErr (Option Expr)
  | none => .ok none
  | some e => do
    let e ← specialize table e
    return some e

/-- `_SpecializeGeneric.visit` on `ast.arg`, `/repo/paradigm/_core/stubs.py:628-646`. -/
def specializeArg (table : Dict Path Expr) (a : Arg) : Except PyErr Arg := do
  let annotation ← specializeOption table a.annotation
  return { a with annotation := annotation }

/-- `_SpecializeGeneric.visit` on an optional `ast.arg`. -/
def specializeArgOption (table : Dict Path Expr) : Option Arg → Except PyErr (Option Arg)
  | none => .ok none
  | some a => do
    let a ← specializeArg table a
    return some a

/-- `_SpecializeGeneric.visit` on function definitions, `/repo/paradigm/_core/stubs.py:628-646`.
Simplified: bodies (`...` in stubs) are not modelled. -/
def specializeFunction (table : Dict Path Expr) (f : FunctionDef) : Except PyErr FunctionDef := do
  let posonlyargs ← mapExcept (specializeArg table) f.args.posonlyargs
  let args ← mapExcept (specializeArg table) f.args.args
  let vararg ← specializeArgOption table f.args.vararg
  let kwonlyargs ← mapExcept (specializeArg table) f.args.kwonlyargs
  let kwDefaults ← mapExcept (specializeOption table) f.args.kwDefaults
  let kwarg ← specializeArgOption table f.args.kwarg
  let defaults ← specializeAll table f.args.defaults
  let decorators ← specializeAll table f.decorators
  let returns ← specializeOption table f.returns
  return { f with
    args := { posonlyargs := posonlyargs, args := args, vararg := vararg, kwonlyargs := kwonlyargs,
              kwDefaults := kwDefaults, kwarg := kwarg, defaults := defaults }
    decorators := decorators
    returns := returns }

/-- `_SpecializeGeneric.visit` on statements, `/repo/paradigm/_core/stubs.py:628-646`. Simplified:
only functions and assignments are stored by the parser (`addNode`), other statements are kept. -/
def specializeStmt (table : Dict Path Expr) : Stmt → Except PyErr Stmt
  | .functionDef f => do
    let f ← specializeFunction table f
    return .functionDef f
  | .annAssign target annotation value => do
    let target ← specialize table target
    let annotation ← specialize table annotation
    let value ← specializeOption table value
    return .annAssign target annotation value
  | .assign targets value => do
    let targets ← specializeAll table targets
    let value ← specialize table value
    return .assign targets value
  | node => .ok node

/-- The outermost expressions in a function definition, in the order of `ast.iter_child_nodes`. -/
def FunctionDef.exprs (f : FunctionDef) : List Expr :=
  f.args.posonlyargs.filterMap Arg.annotation ++ f.args.args.filterMap Arg.annotation
    ++ f.args.vararg.toList.filterMap Arg.annotation ++ f.args.kwonlyargs.filterMap Arg.annotation
    ++ f.args.kwDefaults.filterMap id ++ f.args.kwarg.toList.filterMap Arg.annotation
    ++ f.args.defaults ++ f.decorators ++ f.returns.toList

/-- The outermost expressions in a stored statement. -/
def Stmt.exprs : Stmt → List Expr
  | .functionDef f => f.exprs
  | .annAssign target annotation value => target :: annotation :: value.toList
  | .assign targets value => targets ++ [value]
  | _ => []

/-- The names in `{child.id for child in recursively_iterate_children(ast_node) if
is_dependency_name(child)}` for a stored statement, `/repo/paradigm/_core/stubs.py:949-952`, as a
list. -/
def Stmt.loadedNames (node : Stmt) : List String :=
  (node.exprs.flatMap fun e => e :: e.descendants).filterMap Expr.dependencyName

/-! ### Registration -/

/-- The order in which Python visits the elements of a set of names
(`/repo/paradigm/_core/stubs.py:948-954`), which depends on the hashes of texts. -/
structure SetOrder where
  order : List String → List String := fun names => names
  order_perm : ∀ names, (order names).Perm names := by exact fun _ => .refl _

/-- `specializations_module_path`, `/repo/paradigm/_core/stubs.py:715`. -/
def specPath : Path := ["__specializations"]

/-- The tables given to `_scoping.resolve_object_path`, `/repo/paradigm/_core/stubs.py:783-788`. -/
def ParseState.tables (s : ParseState) : Tables :=
  { definitions := s.definitions, references := s.references, submodules := s.submodules,
    superclasses := s.superclasses }

/-- `_scoping.resolve_object_path(...)` on the tables of the moment; `n` nested calls are allowed. -/
def resolveNow (n : Nat) (m parent object : Path) : P QPath := fun s =>
  (resolve s.tables n m parent object [], s)

/-- `for part in path: scope = scope[part]`, `/repo/paradigm/_core/stubs.py:914-916`; `none` for
`KeyError`. -/
def Scope.getPath (scope : Scope) : Path → Option Scope
  | [] => some scope
  | part :: path =>
    match scope.get? part with
    | none => none
    | some scope => scope.getPath path

/-- `for part in path: scope = scope.setdefault(part, {})`, then `scope.update(entries)`,
`/repo/paradigm/_core/stubs.py:911-913,917`. Simplified: the scopes below `entries` are shared
objects in Python; they are not changed afterwards. -/
def Scope.mergeAt (scope : Scope) (entries : List (String × Scope)) : Path → Scope
  | [] => .mk (entries.foldl (fun d (e : String × Scope) => dictSet d e.1 e.2) scope.entries)
  | part :: path =>
    .mk (dictSet scope.entries part (((scope.get? part).getD (.mk [])).mergeAt entries path))

/-- `specializations_references[path] = referent`, `/repo/paradigm/_core/stubs.py:967-969`. -/
def setSpecReference (path : Path) (q : QPath) (s : ParseState) : ParseState :=
  { s with references := dictUpdate s.references specPath [] (dictSet · path q) }

/-- `specializations_ast_nodes[path] = nodes`, `/repo/paradigm/_core/stubs.py:938-941`. -/
def setSpecNodes (path : Path) (nodes : List Stmt) (s : ParseState) : ParseState :=
  { s with nodes := dictUpdate s.nodes specPath [] (dictSet · path nodes) }

/-- `specializations_nodes_kinds[path] = kind`, `/repo/paradigm/_core/stubs.py:919-921,970-972`. -/
def setSpecKind (path : Path) (kind : NodeKind) (s : ParseState) : ParseState :=
  { s with kinds := dictUpdate s.kinds specPath [] (dictSet · path kind) }

/-- A change of `specializations_module_scope`. -/
def setSpecScope (f : Scope → Scope) (s : ParseState) : ParseState :=
  { s with definitions := dictUpdate s.definitions specPath (.mk []) f }

/-- `specializations_references[dependency_path] = ...` for one dependency, unless it is a built-in,
`/repo/paradigm/_core/stubs.py:955-969`. -/
def registerDependency (n : Nat) (gm sm : Path) (argsNames : List String) (name : String) :
    P Unit := do
  let q ← resolveNow n (if argsNames.contains name then sm else gm) [] [name]
  if q.1 ≠ builtinsPath then
    P.update (setSpecReference [name] q)
  else pure ()

/-- `d[key]`. -/
def itemOf {α β : Type} [BEq α] (d : Dict α β) (key : α) : Except PyErr β :=
  match d.lookup key with
  | none => .error .keyError
  | some v => .ok v

/-- The body of the loop over the members, `/repo/paradigm/_core/stubs.py:934-972`. `nodes` is
`generic_module_ast_nodes`, `o` the order in which sets are visited. -/
def registerMember (o : SetOrder) (n : Nat) (gm go sm so : Path) (table : Dict Path Expr)
    (argsNames : List String) (nodes : Dict Path (List Stmt)) (name : String) : P Unit := do
  let genericNodes ← P.lift (itemOf nodes (go ++ [name]))
  let newNodes ← P.lift (mapExcept (specializeStmt table) genericNodes)
  P.update (setSpecNodes (so ++ [name]) newNodes)
  let defined ← P.lift (mapExcept toNames newNodes)
  P.each (registerDependency n gm sm argsNames)
    (o.order ((dedup (newNodes.flatMap Stmt.loadedNames)).filter fun x =>
      !defined.flatten.contains x))
  let kinds ← P.item ParseState.kinds gm
  let kind ← P.lift (itemOf kinds (go ++ [name]))
  P.update (setSpecKind (so ++ [name]) kind)

/-- `args_names`, `/repo/paradigm/_core/stubs.py:925-933`. -/
def argsNames (args : List Expr) : List String :=
  (args.flatMap fun e => e :: e.descendants).filterMap Expr.dependencyName

/-- `_register_generic_specialization`, `/repo/paradigm/_core/stubs.py:889-972`: the class `go` of
module `gm` with `params` replaced by `args` becomes `so` of `__specializations`; names in `args` are
those of module `sm`. Simplified: `dict(zip(...))` would keep the last argument of a repeated
parameter, the list here the first; the recorded parameters are distinct. -/
def registerGeneric (o : SetOrder) (n : Nat) (gm go sm so : Path) (params : List Path) (args : List Expr) :
    P Unit := do
  P.update (setSpecScope (·.add so))
  let defs ← P.item ParseState.definitions gm
  match defs.getPath go with
  | none => P.fail .keyError
  | some genericScope =>
    P.update (setSpecScope (·.mergeAt genericScope.entries so))
    let nodes ← P.item ParseState.nodes gm
    P.update (setSpecKind so .class_)
    P.each (registerMember o n gm go sm so (params.zip args) (argsNames args) nodes)
      (genericScope.entries.map Prod.fst)

/-- `base_name in specializations_module_scope`, `/repo/paradigm/_core/stubs.py:777,824`. -/
def isRegistered (name : String) : P Bool := do
  let defs ← P.item ParseState.definitions specPath
  pure (defs.get? name).isSome

/-- The nodes of `classes_bases[cls][i]` become those of `base`: `specialize(generic_base)` changes
the stored node itself, `/repo/paradigm/_core/stubs.py:817`. -/
def setBase (cls : QPath) (i : Nat) (base : Expr) (s : ParseState) : ParseState :=
  { s with classesBases := dictUpdate s.classesBases cls [] (·.set i base) }

/-- The specialisation of a base that is itself `G[args]`, `/repo/paradigm/_core/stubs.py:816-860`;
`generic` is the class whose `i`-th base it is. -/
def registerSubscript (o : SetOrder) (rep : Atom → String) (n : Nat) (generic : QPath) (cm : Path)
    (table : Dict Path Expr) (i : Nat) (value slice : Expr) (load : Bool) : P QPath := do
  let value ← P.lift (specialize table value)
  let slice ← P.lift (specialize table slice)
  P.update (setBase generic i (.subscript value slice load))
  let name ← P.lift (toIdentifier rep (.subscript value slice load))
  let registered ← isRegistered name
  if registered then pure (specPath, [name])
  else do
    let path ← P.lift (toPath value)
    let g ← resolveNow n generic.1 generic.2.dropLast path
    let params ← P.item ParseState.generics g
    registerGeneric o n g.1 g.2 cm [name] params (unpack slice)
    pure (specPath, [name])

/-- What is recorded for a base of a specialised class, `/repo/paradigm/_core/stubs.py:816-872`. -/
def baseBasePath (o : SetOrder) (rep : Atom → String) (n : Nat) (generic : QPath) (cm : Path)
    (table : Dict Path Expr) (b : Expr × Nat) : P QPath :=
  match b.1 with
  | .subscript value slice load => registerSubscript o rep n generic cm table b.2 value slice load
  | base => do
    let path ← P.lift (toPath base)
    resolveNow n generic.1 [] path

/-- The body of the loop over the bases of a specialised class,
`/repo/paradigm/_core/stubs.py:813-877`; `generic` is the class that is specialised. -/
def registerBaseBase (o : SetOrder) (rep : Atom → String) (n : Nat) (generic : QPath) (cm : Path) (name : String)
    (table : Dict Path Expr) (b : Expr × Nat) : P Unit := do
  let q ← baseBasePath o rep n generic cm table b
  P.update (addSuperclass specPath [name] q)

/-- The registration of `value[slice]` under a name that is not taken,
`/repo/paradigm/_core/stubs.py:778-877`. -/
def registerNew (o : SetOrder) (rep : Atom → String) (n : Nat) (name : String) (value slice : Expr) (cm co : Path) :
    P Unit := do
  let path ← P.lift (toPath value)
  let g ← resolveNow n cm co.dropLast path
  let params ← P.item ParseState.generics g
  registerGeneric o n g.1 g.2 cm [name] params (unpack slice)
  let s ← P.get
  if (((s.superclasses.lookup specPath).getD []).lookup [name]).isSome then P.fail .assertionError
  else do
    let genericBases ← P.item ParseState.classesBases g
    P.each (registerBaseBase o rep n g cm name (params.zip (unpack slice))) genericBases.zipIdx

/-- `_register_base_ast_node`, `/repo/paradigm/_core/stubs.py:754-886`. -/
def registerBase (o : SetOrder) (rep : Atom → String) (n : Nat) (base : Expr) (cm co : Path) : P QPath :=
  match base with
  | .subscript value slice load => do
    let name ← P.lift (toIdentifier rep (.subscript value slice load))
    let registered ← isRegistered name
    if registered then pure (specPath, [name])
    else do
      registerNew o rep n name value slice cm co
      pure (specPath, [name])
  | base => do
    let path ← P.lift (toPath base)
    resolveNow n cm co.dropLast path

/-- The body of the loop of `_process_classes_bases` for the base at index `i` of a class,
`/repo/paradigm/_core/stubs.py:736-751`; the list of bases is looked up again, because earlier steps
change its nodes. -/
def processBase (o : SetOrder) (rep : Atom → String) (n : Nat) (cls : QPath) (i : Nat) : P Unit := do
  let bases ← P.item ParseState.classesBases cls
  match bases[i]? with
  | none => pure ()
  | some base => do
    let q ← registerBase o rep n base cls.1 cls.2
    P.update (addSuperclass cls.1 cls.2 q)

/-- The body of the outer loop of `_process_classes_bases`, `/repo/paradigm/_core/stubs.py:733-751`. -/
def processClass (o : SetOrder) (rep : Atom → String) (n : Nat) (cls : QPath) : P Unit := do
  let bases ← P.item ParseState.classesBases cls
  P.each (processBase o rep n cls) (List.range bases.length)

/-- The entries of `__specializations` made before the loop, `/repo/paradigm/_core/stubs.py:717-732`. -/
def openSpecializations : P Unit := do
  let s ← P.get
  if (s.nodes.lookup specPath).isSome then P.fail .assertionError
  else if (s.definitions.lookup specPath).isSome then P.fail .assertionError
  else if (s.kinds.lookup specPath).isSome then P.fail .assertionError
  else if (s.references.lookup specPath).isSome then P.fail .assertionError
  else P.update (fun s => { s with
    nodes := dictSet s.nodes specPath []
    definitions := dictSet s.definitions specPath (.mk [])
    kinds := dictSet s.kinds specPath []
    references := dictSet s.references specPath [] })

/-- `_process_classes_bases`, `/repo/paradigm/_core/stubs.py:703-751`. -/
def processBases (o : SetOrder) (rep : Atom → String) (n : Nat) : P Unit := do
  openSpecializations
  let s ← P.get
  P.each (processClass o rep n) (s.classesBases.map Prod.fst)

/-- `_parse_stubs_state`, `/repo/paradigm/_core/stubs.py:649-700`: the tables it returns. Stored
trees are modelled as trees, see `Model/Syntax.lean`. -/
def parseStubs (E : StubFiles) (rep : Atom → String) (n : Nat) (modules : List Path) :
    Except PyErr Stubs :=
  match (do parseAll E n modules; processBases ⟨E.order, E.order_perm⟩ rep n : P Unit) {} with
  | (.error e, _) => .error e
  | (.ok (), s) => .ok { s.tables with rawAstNodes := s.nodes, nodesKinds := s.kinds }

end Paradigm
