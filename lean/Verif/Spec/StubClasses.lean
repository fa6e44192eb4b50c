import Verif.Spec.Evaluation

/-!
# Classes that only exist in stub files (specification)

What the stub tables say about a class.
-/

namespace Paradigm.Spec

/-- The scope with the given path inside a scope. -/
def innerScope : Path → Scope → Option Scope
  | [], scope => some scope
  | name :: path, scope =>
    match scope.entries.lookup name with
    | none => none
    | some inner => innerScope path inner

/-- The names a class (or other object) contains. -/
def declaredNames (T : Stubs) (q : QPath) : Option (List String) :=
  ((T.definitions.lookup q.1).bind (innerScope q.2)).map fun scope => scope.entries.map Prod.fst

/-- The statements that define an object, in order. -/
def statementsOf (T : Stubs) (q : QPath) : List Stmt :=
  ((T.rawAstNodes.lookup q.1).bind (·.lookup q.2)).getD []

/-- The member of a class. -/
def memberOf (q : QPath) (name : String) : QPath := (q.1, q.2 ++ [name])

/-- The object is recorded as a class. -/
def IsStubClass (T : Stubs) (q : QPath) : Prop :=
  (T.nodesKinds.lookup q.1).bind (·.lookup q.2) = some .class_

/-- The superclasses of a class, in order. -/
def superclassesOf (T : Stubs) (q : QPath) : List QPath :=
  ((T.superclasses.lookup q.1).bind (·.lookup q.2)).getD []

/-- `target: annotation` without a value. -/
def OnlyAnnotates (node : Stmt) (annotation : Expr) : Prop :=
  ∃ target, node = .annAssign target annotation none

/-- The last of the statements that is more than an annotation defines the function. -/
def EndsWithFunction (nodes : List Stmt) (f : FunctionDef) : Prop :=
  ∃ before after, nodes = before ++ .functionDef f :: after ∧ ∀ node ∈ after, ∃ e, OnlyAnnotates node e

/-- The last of the statements that is only an annotation. -/
def EndsWithAnnotation (nodes : List Stmt) (e : Expr) : Prop :=
  ∃ before node after, nodes = before ++ node :: after ∧ OnlyAnnotates node e ∧
    ∀ node ∈ after, ¬ ∃ e, OnlyAnnotates node e

/-- The member of that name consists of functions of that name and annotations. -/
def FunctionsAndAnnotations (T : Stubs) (q : QPath) (name : String) : Prop :=
  ∀ node ∈ statementsOf T (memberOf q name),
    (∃ e, OnlyAnnotates node e) ∨ ∃ f, node = .functionDef f ∧ f.name = name

end Paradigm.Spec
