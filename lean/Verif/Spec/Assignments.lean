import Verif.Spec.Evaluation

/-!
# What stub files are assumed to assign
-/

namespace Paradigm.Spec

/-- `id = value` or `id: annotation = value` (also without value), where no operators other than `|`, `&` and
`^` are used in the value. -/
def PlainAssignment (targets : List Expr) (value : Option Expr) : Prop :=
  (∃ id, targets = [.name id false]) ∧ ∀ e, value = some e → BitOps e

mutual

/-- All assignments in the statement are plain, in classes and in both branches of conditions, too. -/
def PlainlyAssigning : Stmt → Prop
  | .annAssign target _ value => PlainAssignment [target] value
  | .assign targets value => PlainAssignment targets (some value)
  | .functionDef _ => True
  | .classDef _ _ _ body => AllPlainlyAssigning body
  | .ifStmt _ body orelse => AllPlainlyAssigning body ∧ AllPlainlyAssigning orelse
  | .import_ _ => True
  | .importFrom .. => True
  | .other _ body => AllPlainlyAssigning body

def AllPlainlyAssigning : List Stmt → Prop
  | [] => True
  | node :: nodes => PlainlyAssigning node ∧ AllPlainlyAssigning nodes

end

/-- No stub file has other assignments. -/
def PlainFiles (E : StubFiles) : Prop :=
  ∀ m body, E.source m = some body → AllPlainlyAssigning body

end Paradigm.Spec
