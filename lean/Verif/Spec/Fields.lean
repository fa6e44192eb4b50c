import Verif.Model.Syntax

/-!
# What the fields of a named tuple are

Independent of the parser.
-/

namespace Paradigm.Spec

/-- A field of a named tuple: `name: type` or `name: type = default`. -/
structure Field where
  name : String
  type : Expr
  default : Option Expr

mutual

/-- The annotated names a statement of a class body introduces, where `o` says which tests hold. -/
def fieldsOf (o : Expr → Bool) : Stmt → List (Expr × Expr × Option Expr)
  | .annAssign target annotation value => [(target, annotation, value)]
  | .ifStmt test body orelse => if o test then fieldsAll o body else fieldsAll o orelse
  | _ => []

/-- The annotated names several statements introduce. -/
def fieldsAll (o : Expr → Bool) : List Stmt → List (Expr × Expr × Option Expr)
  | [] => []
  | node :: nodes => fieldsOf o node ++ fieldsAll o nodes

end

/-- The class body has exactly these fields. -/
def IsFields (o : Expr → Bool) (body : List Stmt) (fields : List Field) : Prop :=
  fieldsAll o body = fields.map fun f => (.name f.name false, f.type, f.default)

/-- `def __new__(cls, field: type, ..., field: type = default, ...) -> name`: the defaults belong to
the last parameters, as always. -/
structure ConstructorOf (name : String) (fields : List Field) (f : FunctionDef) : Prop where
  called : f.name = "__new__"
  args : f.args.args = ⟨"cls", none⟩ :: fields.map fun x => ⟨x.name, some x.type⟩
  defaults : f.args.defaults = fields.filterMap Field.default
  posonly : f.args.posonlyargs = []
  vararg : f.args.vararg = none
  kwonly : f.args.kwonlyargs = []
  kwarg : f.args.kwarg = none
  returns : f.returns = some (.name name true)

end Paradigm.Spec
