import Verif.Model.Scoping

/-!
# Syntax trees

The part of CPython 3.11's `ast` that paradigm's stub reader and signature builder look at, and the
conversions of `/repo/paradigm/_core/arboreal/conversion.py` and `arboreal/utils.py`.

Positions (`lineno`, ...) and type comments are not modelled. Trees are stored by paradigm as text
(`ast.dump`, read back with `eval`, `/repo/paradigm/_core/arboreal/conversion.py:111-113`,
`arboreal/construction.py:15-21`); here stored trees are modelled as trees, the texts are modelled in
`Verif/Model/RawNodes.lean` (C91 says which trees survive).
-/

namespace Paradigm

/-- `ast.expr` nodes. `load` says whether the node's `ctx` is `ast.Load`. Literals are `constant`.
`other` stands for every further expression class, with its expression children in field order. -/
inductive Expr where
  | name (id : String) (load : Bool)
  | attribute (value : Expr) (attr : String) (load : Bool)
  | subscript (value slice : Expr) (load : Bool)
  | tuple (elts : List Expr) (load : Bool)
  | list (elts : List Expr)
  | call (func : Expr) (args : List Expr) (keywords : List (Option String × Expr))
  | constant (value : Atom)
  | binOp (left : Expr) (op : String) (right : Expr)
  | other (tag : String) (children : List Expr)
  deriving Repr, Inhabited

/-- `ast.arg`. -/
structure Arg where
  name : String
  annotation : Option Expr
  deriving Repr, Inhabited

/-- `ast.arguments`. -/
structure Arguments where
  posonlyargs : List Arg := []
  args : List Arg := []
  vararg : Option Arg := none
  kwonlyargs : List Arg := []
  kwDefaults : List (Option Expr) := []
  kwarg : Option Arg := none
  defaults : List Expr := []
  deriving Repr, Inhabited

/-- `ast.FunctionDef` / `ast.AsyncFunctionDef`; the body is never looked at. -/
structure FunctionDef where
  isAsync : Bool := false
  name : String
  args : Arguments
  decorators : List Expr := []
  returns : Option Expr := none
  deriving Repr, Inhabited

/-- `ast.alias`. -/
structure Alias where
  name : String
  asname : Option String
  deriving Repr, DecidableEq, Inhabited

/-- `ast.stmt` nodes. `other` stands for every further statement class, with its statement children
in the order of `ast.NodeVisitor.generic_visit`; `ifStmt` keeps its test. -/
inductive Stmt where
  | annAssign (target annotation : Expr) (value : Option Expr)
  | assign (targets : List Expr) (value : Expr)
  | functionDef (f : FunctionDef)
  | classDef (name : String) (bases : List Expr) (decorators : List Expr) (body : List Stmt)
  | ifStmt (test : Expr) (body orelse : List Stmt)
  | import_ (names : List Alias)
  | importFrom (module : Option String) (names : List Alias) (level : Nat)
  | other (tag : String) (body : List Stmt)
  deriving Inhabited

/-- `conversion.to_path`, `/repo/paradigm/_core/arboreal/conversion.py:211-223`. -/
def toPath : Expr → Except PyErr Path
  | .name id _ => .ok [id]
  | .attribute value attr _ =>
    match toPath value with
    | .ok path => .ok (path ++ [attr])
    | .error e => .error e
  | _ => .error (.typeError "to_path")

/-- `conversion.to_maybe_path`, `/repo/paradigm/_core/arboreal/conversion.py:226-241`. -/
def toMaybePath : Expr → Option Path
  | .name id _ => some [id]
  | .attribute value attr _ =>
    match toMaybePath value with
    | none => none
    | some path => some (path ++ [attr])
  | _ => none

/-- `arboreal.kind.NodeKind`, `/repo/paradigm/_core/arboreal/kind.py:5-10`. -/
inductive NodeKind where
  | annotatedAssignment
  | assignment
  | asyncFunction
  | class_
  | function
  deriving DecidableEq, Repr

/-- The tables of `stubs.py` (`/repo/paradigm/_core/stubs.py:22-27` and its cached values): those
used by resolution, the stored trees and the kinds of the stored objects. -/
structure Stubs extends Tables where
  rawAstNodes : Dict Path (Dict Path (List Stmt))
  nodesKinds : Dict Path (Dict Path NodeKind)

end Paradigm
