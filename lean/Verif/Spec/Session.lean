import Verif.Model.Session
import Verif.Spec.Evaluation

/-!
# What a question about a signature reads (specification)

The annotations and defaults an answer may be made of, given by the definitions a callable is looked
up at. Of the model only the resolution of names and the search for the definitions are used.
-/

namespace Paradigm.Spec

/-- The annotations and defaults of a list of parameters. -/
def argumentsParts (a : Arguments) : List Expr :=
  (a.args ++ a.vararg.toList ++ a.kwonlyargs ++ a.kwarg.toList).filterMap Arg.annotation ++
    a.defaults ++ a.kwDefaults.filterMap id

/-- The types in `Callable[[X, Y], Z]` or `Callable[..., Z]`, given what is between the brackets. -/
def itemParts : Expr → List Expr
  | .tuple [.list elts, returns] _ => elts ++ [returns]
  | .tuple [_, returns] _ => [returns]
  | _ => []

/-- `Within e e'`: where a callable has the type `e`, its calls are those of `e'`, which is `e` or for a
type variable its bound or one of its constraints. -/
inductive Within : Expr → Expr → Prop where
  | refl (e : Expr) : Within e e
  | argument {func : Expr} {args : List Expr} {keywords : List (Option String × Expr)} {e e' : Expr} :
    e ∈ args → Within e e' → Within (.call func args keywords) e'
  | keyword {func : Expr} {args : List Expr} {keywords : List (Option String × Expr)}
    {k : Option String} {e e' : Expr} :
    (k, e) ∈ keywords → Within e e' → Within (.call func args keywords) e'

/-- The type of the object a statement assigns to, as far as signatures are made from it. -/
def typeOf : Stmt → Option Expr
  | .annAssign _ annotation value => some (value.getD annotation)
  | .assign _ value => some value
  | _ => none

/-- Statement `node` is stored for the object. -/
def StoredAt (T : Stubs) (q : QPath) (node : Stmt) : Prop :=
  ∃ nodes stmts, T.rawAstNodes.lookup q.1 = some nodes ∧ nodes.lookup q.2 = some stmts ∧ node ∈ stmts

/-- The targets and the value of an assignment. -/
def assignmentOf : Stmt → Option (List Expr × Option Expr)
  | .annAssign target _ value => some ([target], value)
  | .assign targets value => some (targets, some value)
  | _ => none

/-- A name assigned to is an object of its own: where it refers to an alias, the statement is the
definition of the alias. -/
def OwnTargets (T : Stubs) (depth : Nat) : Prop :=
  ∀ (m p : Path) (node : Stmt) (targets : List Expr) (value : Option Expr) (id : String) (b : Bool)
    (q : QPath), StoredAt T (m, p) node → assignmentOf node = some (targets, value) →
    Expr.name id b ∈ targets → resolve T.toTables depth m p.dropLast [id] [] = .ok q →
    aliasValue T q ≠ none → q = (m, p)

/-- Every assignment is one to a single name, that of the object it is stored for (there are no chained
assignments `a = b = c`). -/
def PlainTargets (T : Stubs) : Prop :=
  ∀ (q : QPath) (node : Stmt) (targets : List Expr) (value : Option Expr), StoredAt T q node →
    assignmentOf node = some (targets, value) →
    ∃ id b, targets = [.name id b] ∧ q.2.getLast? = some id

/-- `ReadsPart T depth m parent node m' parent' e`: a signature made from the statement `node` of module `m`
and class `parent` may have a part given by `e`, an expression of module `m'` and class `parent'`. -/
inductive ReadsPart (T : Stubs) (depth : Nat) : Path → Path → Stmt → Path → Path → Expr → Prop where
  | parameter {m parent : Path} {f : FunctionDef} {e : Expr} :
    e ∈ argumentsParts f.args → ReadsPart T depth m parent (.functionDef f) m parent e
  | returns {m parent : Path} {f : FunctionDef} {e : Expr} :
    f.returns = some e → ReadsPart T depth m parent (.functionDef f) m parent e
  | item {m parent : Path} {node : Stmt} {type value slice : Expr} {b : Bool} {e : Expr} :
    typeOf node = some type → Within type (.subscript value slice b) → e ∈ itemParts slice →
    ReadsPart T depth m parent node m parent e
  | named {m parent : Path} {node : Stmt} {type e : Expr} {path : Path} {q : QPath} {object : Path}
    {node' : Stmt} {m' parent' : Path} {e' : Expr} :
    typeOf node = some type → Within type e → toPath e = .ok path →
    resolve T.toTables depth m parent path [] = .ok q → object = q.2 ∨ object = q.2 ++ ["__call__"] →
    StoredAt T (q.1, object) node' → ReadsPart T depth q.1 [] node' m' parent' e' →
    ReadsPart T depth m parent node m' parent' e'

/-- The functions the definition of which is looked for, and the classes (marked `true`) of which a
constructor is. -/
def lookedFor : Callable → List (Bool × Fn)
  | .builtin (.instance _ attr) _ _ _ => attr.toOption.toList.map (false, ·)
  | .builtin owner qualname obj _ => [(false, .ofBuiltin owner qualname obj)]
  | .function l _ => [(false, .ofFunction l)]
  | .method obj none _ => [(false, .ofMethod obj)]
  | .method _ (some (_, attr)) _ => attr.toOption.toList.map (false, ·)
  | .methodWrapper none _ => []
  | .methodWrapper (some (_, attr)) _ => attr.toOption.toList.map (false, ·)
  | .descriptor l _ => [(false, .ofDescriptor l)]
  | .cls l _ => [(true, .ofClass l)]
  | .partial_ func _ _ => lookedFor func
  | .other => []

/-- The definitions a function, or the constructor of a class, may be looked up at. -/
def LookedUp (R : Runtime) (asClass : Bool) (f : Fn) (q : QPath) : Prop :=
  if asClass then ∃ paths, resolveQualifiedPaths R f = .ok paths ∧ resolveBuilder R paths = .ok q
  else ∃ paths, toQualifiedPaths R f = .ok paths ∧ q ∈ paths

/-- The signature of the callable may have a part given by the expression `e` of module `m` and class
`parent`. -/
def MayRead (R : Runtime) (c : Callable) (m parent : Path) (e : Expr) : Prop :=
  ∃ f ∈ lookedFor c, ∃ q node, LookedUp R f.1 f.2 q ∧ StoredAt R.stubs q node ∧
    ReadsPart R.stubs R.depth q.1 q.2.dropLast node m parent e

/-- `Collected s t`: between the states objects may have been collected as garbage. The caches with weak
references may have lost entries, except for the `Self` they start with, which is kept by its module. -/
structure Collected (s t : EvalState Obj) : Prop where
  ns : t.ns = s.ns
  back : t.back = s.back
  assigned : t.assigned = s.assigned
  objects : ∀ q v, t.objects.lookup q = some v → s.objects.lookup q = some v
  self : t.objects.lookup (["_typeshed"], ["Self"]) = s.objects.lookup (["_typeshed"], ["Self"])
  modules : ∀ m v, t.modules.lookup m = some v → s.modules.lookup m = some v

/-- Nothing but garbage collection happens to the caches; it may be different each time (`EvalState.clock` may
be set in any way). -/
def Collecting (collect : EvalState Obj → EvalState Obj) : Prop := ∀ s, Collected s (collect s)

end Paradigm.Spec
