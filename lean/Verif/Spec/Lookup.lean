import Verif.Spec.Definitions

/-!
# Where a definition is found (specification)
-/

namespace Paradigm.Spec

/-- Python's order of tuples of strings. -/
def PathBefore : Path → Path → Prop
  | _, [] => False
  | [], _ :: _ => True
  | x :: xs, y :: ys => x < y ∨ x = y ∧ PathBefore xs ys

/-- Python's order of pairs. -/
def QPathBefore (p q : QPath) : Prop := PathBefore p.1 q.1 ∨ p.1 = q.1 ∧ PathBefore p.2 q.2

/-- The stubs contain a definition at this place. -/
def Declared (S : Stubs) (q : QPath) : Prop :=
  ∃ nodes stmts, S.rawAstNodes.lookup q.1 = some nodes ∧ nodes.lookup q.2 = some stmts

/-- The declared base classes. -/
def declaredBases (S : Stubs) (q : QPath) : List QPath :=
  ((S.superclasses.lookup q.1).bind (fun supers => supers.lookup q.2)).getD []

/-- `q.name` -/
def QPath.attr (q : QPath) (name : String) : QPath := (q.1, q.2 ++ [name])

/-- Neither the class nor anything it inherits from defines a constructor. -/
inductive Lacks (S : Stubs) : QPath → Prop where
  | mk (q : QPath) : (∃ nodes, S.rawAstNodes.lookup q.1 = some nodes) →
      ¬ Declared S (QPath.attr q "__init__") → ¬ Declared S (QPath.attr q "__new__") →
      (∀ b ∈ declaredBases S q, Lacks S b) → Lacks S q

/-- `r` is the constructor of the class `q`: its own `__init__`, else its own `__new__`, else that
of the first base that has one. -/
inductive Constructs (S : Stubs) : QPath → QPath → Prop where
  | init (q : QPath) : Declared S (QPath.attr q "__init__") →
      Constructs S q (QPath.attr q "__init__")
  | new (q : QPath) : ¬ Declared S (QPath.attr q "__init__") →
      Declared S (QPath.attr q "__new__") → Constructs S q (QPath.attr q "__new__")
  | inherited (q : QPath) (pre : List QPath) (b : QPath) (post : List QPath) (r : QPath) :
      (∃ nodes, S.rawAstNodes.lookup q.1 = some nodes) →
      ¬ Declared S (QPath.attr q "__init__") → ¬ Declared S (QPath.attr q "__new__") →
      declaredBases S q = pre ++ b :: post → (∀ p ∈ pre, Lacks S p) → Constructs S b r →
      Constructs S q r

/-- `a` is the class itself or inherited by it. -/
inductive Ancestor (S : Stubs) : QPath → QPath → Prop where
  | refl (q : QPath) : Ancestor S q q
  | step {q b a : QPath} : b ∈ declaredBases S q → Ancestor S b a → Ancestor S q a

/-- `C` holds of all runtimes that allow enough nested calls. -/
def Eventually (R : Runtime) (C : Runtime → Prop) : Prop :=
  ∃ n, ∀ k, n ≤ k → C { R with depth := k }

/-- The callable is looked up by its own name, as `f`, and `raw` is what `inspect` reports. -/
inductive LookedUpAs : Callable → Fn → Except PyErr RawSig → Prop where
  | function (l raw) : LookedUpAs (.function l raw) (.ofFunction l) raw
  | descriptor (l raw) : LookedUpAs (.descriptor l raw) (.ofDescriptor l) raw
  | builtin (qualname obj raw) :
      LookedUpAs (.builtin .none qualname obj raw) (.ofBuiltin .none qualname obj) raw
  | moduleBuiltin (name spec qualname obj raw) :
      LookedUpAs (.builtin (.module name spec) qualname obj raw)
        (.ofBuiltin (.module name spec) qualname obj) raw
  | classBuiltin (m qualname obj raw) :
      LookedUpAs (.builtin (.type m) qualname obj raw) (.ofBuiltin (.type m) qualname obj) raw
  | classMethod (obj raw) : LookedUpAs (.method obj none raw) (.ofMethod obj) raw

/-- The callable is `g` bound to the instance `owner`. -/
inductive InstanceBound : Callable → Obj → Fn → Prop where
  | method (obj owner g raw) : InstanceBound (.method obj (some (owner, .ok g)) raw) owner g
  | builtin (qualname obj owner g raw) :
      InstanceBound (.builtin (.instance owner (.ok g)) qualname obj raw) owner g
  | methodWrapper (owner g raw) : InstanceBound (.methodWrapper (some (owner, .ok g)) raw) owner g

/-- What `inspect` reports about the callable. -/
def inspected : Callable → List (Except PyErr RawSig)
  | .builtin _ _ _ raw => [raw]
  | .function _ raw => [raw]
  | .method _ _ raw => [raw]
  | .methodWrapper _ raw => [raw]
  | .descriptor _ raw => [raw]
  | .cls _ raw => [raw]
  | .partial_ func _ _ => inspected func
  | .other => []

end Paradigm.Spec
