import Verif.Spec.Callables
import Verif.Spec.Session

/-!
# What a signature made from a definition should be (specification)
-/

namespace Paradigm.Spec

/-- The annotations and defaults written in a definition. -/
def partsOf (d : FunctionDef) : List Expr := argumentsParts d.args ++ d.returns.toList

/-- The value an expression has by the meaning of its names in a module and class. -/
def meaningOf {V : Type} (W : Interpreter V) (T : Stubs) (depth : Nat) (known : QPath → Option V) (n : Nat)
    (m parent : Path) (e : Expr) : Except PyErr V :=
  pyEval W (fun id =>
    match resolve T.toTables depth m parent [id] [] with
    | .ok r => meaning W T depth known n r
    | .error _ => none) e

/-- The plain signature says what the definition says: its parameters are those written, in order, with
the types and defaults written (without the first one for a constructor, with `Self` for the first one
of a method), and it returns what is written, which for `__init__` of a class is `Self`. -/
structure Written (means : Expr → Except PyErr Obj) (role : Role) (d : FunctionDef) (p : PlainSig) :
    Prop where
  parameters : ∃ full, Pointwise (Transcribes means) (formals d.args) full ∧
    Adjusted role full p.parameters
  init : role = .constructor → d.name = "__init__" → p.returns = .form selfForm
  returns : ¬ (role = .constructor ∧ d.name = "__init__") → ReturnsOf means d p.returns

/-- The signature is written by the definitions. -/
def WrittenBy (means : Expr → Except PyErr Obj) (role : FunctionDef → Role → Prop)
    (ds : List FunctionDef) (s : Sig) : Prop :=
  ∃ ss, Pointwise (fun d p => ∃ r, role d r ∧ Written means r d p) ds ss ∧ MadeOf ss s

/-- The signature is written by the definitions, up to their first parameter, which is given. -/
def BoundWrittenBy (means : Expr → Except PyErr Obj) (role : FunctionDef → Role → Prop)
    (ds : List FunctionDef) (s : Sig) : Prop :=
  ∃ ss, Pointwise (fun d p => ∃ r first, role d r ∧
    Written means r d ⟨first :: p.parameters, p.returns⟩) ds ss ∧ MadeOf ss s

end Paradigm.Spec
