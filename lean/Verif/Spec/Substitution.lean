import Verif.Spec.Stubs

/-!
# What it means to put arguments in the place of type parameters

Independent of the parser.
-/

namespace Paradigm.Spec

mutual

/-- The expression with every name that is read and has an entry in `σ` replaced, all at once. Names
may be dotted; the longest one counts. -/
def subst (σ : Path → Option Expr) : Expr → Expr
  | .name id load => if load then (σ [id]).getD (.name id load) else .name id load
  | .attribute value attr load =>
    match if load then (dotted (.attribute value attr load)).bind σ else none with
    | some e => e
    | none => .attribute (subst σ value) attr load
  | .subscript value slice load => .subscript (subst σ value) (subst σ slice) load
  | .tuple elts load => .tuple (substAll σ elts) load
  | .list elts => .list (substAll σ elts)
  | .call func args keywords => .call (subst σ func) (substAll σ args) (substKw σ keywords)
  | .constant value => .constant value
  | .binOp left op right => .binOp (subst σ left) op (subst σ right)
  | .other tag children => .other tag (substAll σ children)

/-- The same for several expressions. -/
def substAll (σ : Path → Option Expr) : List Expr → List Expr
  | [] => []
  | e :: es => subst σ e :: substAll σ es

/-- The same for keyword arguments. -/
def substKw (σ : Path → Option Expr) : List (Option String × Expr) → List (Option String × Expr)
  | [] => []
  | (k, e) :: es => (k, subst σ e) :: substKw σ es

end

/-- The same for a parameter. -/
def substArg (σ : Path → Option Expr) (a : Arg) : Arg :=
  { a with annotation := a.annotation.map (subst σ) }

/-- The same for a function: annotations, defaults, decorators. -/
def substFunction (σ : Path → Option Expr) (f : FunctionDef) : FunctionDef :=
  { f with
    args := { posonlyargs := f.args.posonlyargs.map (substArg σ)
              args := f.args.args.map (substArg σ)
              vararg := f.args.vararg.map (substArg σ)
              kwonlyargs := f.args.kwonlyargs.map (substArg σ)
              kwDefaults := f.args.kwDefaults.map (·.map (subst σ))
              kwarg := f.args.kwarg.map (substArg σ)
              defaults := f.args.defaults.map (subst σ) }
    decorators := f.decorators.map (subst σ)
    returns := f.returns.map (subst σ) }

/-- The same for a member of a class. -/
def substStmt (σ : Path → Option Expr) : Stmt → Stmt
  | .functionDef f => .functionDef (substFunction σ f)
  | .annAssign target annotation value =>
    .annAssign (subst σ target) (subst σ annotation) (value.map (subst σ))
  | .assign targets value => .assign (targets.map (subst σ)) (subst σ value)
  | node => node

/-- Attributes in the expression are those of dotted names that do not begin with a name of `σ`
(the whole may be one). -/
def PlainAttributes (σ : Path → Option Expr) (e : Expr) : Prop :=
  ∀ value attr load, .attribute value attr load ∈ subtrees e →
    ∃ p, dotted value = some p ∧ ∀ k, σ (p.take (k + 1)) = none

/-- The outermost expressions of a member. -/
def exprsOf : Stmt → List Expr
  | .functionDef f =>
    (f.args.posonlyargs ++ f.args.args ++ f.args.vararg.toList ++ f.args.kwonlyargs
        ++ f.args.kwarg.toList).filterMap Arg.annotation
      ++ f.args.kwDefaults.filterMap id ++ f.args.defaults ++ f.decorators ++ f.returns.toList
  | .annAssign target annotation value => target :: annotation :: value.toList
  | .assign targets value => targets ++ [value]
  | _ => []

/-- The statement gives the name a meaning. -/
def BindsName (name : String) : Stmt → Prop
  | .functionDef f => f.name = name
  | .classDef name' _ _ _ => name' = name
  | .annAssign target _ _ => target = .name name false
  | .assign targets _ => .name name false ∈ targets
  | _ => False

/-- The names a member of a class reads. -/
def namesRead (node : Stmt) : List String := (exprsOf node).flatMap loadedNames

/-- The superclasses recorded for a class of a module. -/
def supersAt (s : ParseState) (m path : Path) : List QPath :=
  (((s.superclasses.lookup m).getD []).lookup path).getD []

/-- The entry recorded for an object of a module in the table of nodes. -/
def nodesEntry (s : ParseState) (m path : Path) : Option (List Stmt) :=
  ((s.nodes.lookup m).getD []).lookup path

end Paradigm.Spec
