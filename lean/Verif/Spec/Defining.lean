import Verif.Spec.StubClasses
import Verif.Spec.Substitution

/-!
# Executing definitions that are only in stub files (specification)
-/

namespace Paradigm.Spec

/-- What Python evaluates when a `def` is executed and its annotations are postponed. -/
def evaluatedParts (f : FunctionDef) : List Expr :=
  f.decorators ++ f.args.defaults ++ f.args.kwDefaults.filterMap id

/-- The names these expressions read. -/
def namesUsed (f : FunctionDef) : List String := (evaluatedParts f).flatMap loadedNames

variable {V : Type} (W : Interpreter V) (T : Stubs) (depth : Nat)

/-- The name, used in the given module and class, is that of a builtin or of an object that exists. -/
def NameExists (scope : QPath) (id : String) : Prop :=
  ∃ r, resolve T.toTables depth scope.1 scope.2 [id] [] = .ok r ∧
    (r.1 = ["builtins"] ∨ ∃ v, runtimeObject W r = .ok (some v))

/-- The name has its meaning in the namespace: the object that exists, or, left to Python, a builtin. -/
def Denoted (scope : QPath) (ns : Dict String V) (id : String) : Prop :=
  ∃ r, resolve T.toTables depth scope.1 scope.2 [id] [] = .ok r ∧
    ((r.1 = ["builtins"] ∧ ns.lookup id = none) ∨
      (r.1 ≠ ["builtins"] ∧ ∃ v, runtimeObject W r = .ok (some v) ∧ ns.lookup id = some v))

/-- The annotations can be postponed, and Python executes the `def` wherever the names in it have their
meaning. -/
def Executable (other : Atom → String) (scope : QPath) (f : FunctionDef) : Prop :=
  ∃ g, lazyFunction other f = .ok g ∧
    ∀ ns, (∀ id ∈ namesUsed f, Denoted W T depth scope ns id) → ∃ w, W.define g ns = .ok w

end Paradigm.Spec
