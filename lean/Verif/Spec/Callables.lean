import Verif.Spec.Lookup

/-!
# What the stubs say about a callable (specification)
-/

namespace Paradigm.Spec

/-- The stubs define `q` by the functions `fs`, in this order. -/
def DefinedBy (S : Stubs) (q : QPath) (fs : List FunctionDef) : Prop :=
  ∃ nodes, S.rawAstNodes.lookup q.1 = some nodes ∧ nodes.lookup q.2 = some (fs.map .functionDef)

/-- A signature made of the plain ones `ss`: one is kept as it is, several are overloads. -/
def MadeOf (ss : List PlainSig) (s : Sig) : Prop :=
  ss ≠ [] ∧ (∀ p, ss = [p] → s = .plain p) ∧ (2 ≤ ss.length → s = .overloaded ss)

/-- The signature of `c` that the definitions `fs` at `q` give. -/
def GivenBy (R : Runtime) (c : Fn) (q : QPath) (fs : List FunctionDef) (s : Sig) : Prop :=
  ∃ ss : List PlainSig,
    Pointwise (fun f p => fromFunctionDef R f c q.1 q.2.dropLast = .ok (.plain p)) fs ss ∧
    MadeOf ss s

/-- The constructor of a class that has no other one. -/
def objectNew : QPath := (["builtins"], ["object", "__new__"])

/-- `r` is the constructor on which all locations of a class agree, those with no constructor of
their own aside. -/
def Agreed (builders : List QPath) (r : QPath) : Prop :=
  r ∈ builders ∧ ∀ b ∈ builders, b = r ∨ b = objectNew

/-- `returns` is what the definition declares to return. -/
def ReturnsOf (ev : Expr → Except PyErr Obj) (f : FunctionDef) (returns : Obj) : Prop :=
  (f.returns = none → returns = .form anyForm) ∧ ∀ e, f.returns = some e → ev e = .ok returns

/-- A place at which the callable is looked for: a place listed for its qualified path at which it
is found, or, if nothing is listed, the path itself. -/
def Candidate (R : Runtime) (value : Fn) (c : QPath) : Prop :=
  ∃ q, qualifiedPathFrom value.named = .ok q ∧
    ((∃ objects places, R.index.lookup q.1 = some objects ∧
      objects.lookup q.2 = some places ∧ c ∈ places ∧ R.has value c = true) ∨
    (∀ objects, R.index.lookup q.1 = some objects →
      objects.lookup q.2 = none) ∧ q.1 ≠ [] ∧ c = q)

/-- Following the attributes `path` from the object `x` leads to the object `y`. -/
inductive FollowsTo (L : Live) : Nat → Path → Nat → Prop where
  | here (x : Nat) : FollowsTo L x [] x
  | step {x y z : Nat} {name : String} {path : Path} : L.getattr x name = some y →
      FollowsTo L y path z → FollowsTo L x (name :: path) z

/-- `value` is the object found at `c` in the running interpreter. -/
def FoundAt (L : Live) (value : Nat) (c : QPath) : Prop :=
  ∃ x, L.loaded c.1 = some x ∧ FollowsTo L x c.2 value

/-- A written argument specification of `typing.Callable`. -/
inductive ArgumentSpec where
  /-- `[A, B]` -/
  | exactly (annotations : List Expr)
  /-- `...` or the name of a parameter specification -/
  | anything
  /-- `Concatenate[A, B, P]` -/
  | atLeast (annotations : List Expr)

/-- How the specification is written; `concatenate` is the expression used for
`typing.Concatenate`. -/
def ArgumentSpec.Written (concatenate : Expr) : ArgumentSpec → Expr → Prop
  | .exactly annotations, e => e = .list annotations
  | .anything, e => e = .constant .ellipsis ∨ ∃ id load, e = .name id load
  | .atLeast annotations, e => annotations ≠ [] ∧ ∃ rest load load',
      e = .subscript concatenate (.tuple (annotations ++ [rest]) load) load'

/-- The calls with `n` positional arguments and the keywords `names` that the specification
allows. -/
def ArgumentSpec.Allows : ArgumentSpec → Nat → List String → Prop
  | .exactly annotations, n, names => n = annotations.length ∧ names = []
  | .anything, _, _ => True
  | .atLeast annotations, n, _ => annotations.length ≤ n

end Paradigm.Spec
