import Verif.Spec.Stubs

/-!
# What kinds of objects a stub file defines

Independent of the parser.
-/

namespace Paradigm.Spec

mutual

/-- The names a statement defines in the class or module `parent`, in source order, with what they
are; `o` says which tests hold. Aliases and imports define nothing of their own. -/
def kindsDeclared (o : Expr → Bool) (parent : Path) : Stmt → List (Path × NodeKind)
  | .annAssign target _ value =>
    if isAlias value then [] else [(parent ++ (dotted target).getD [], .annotatedAssignment)]
  | .assign targets value =>
    if isAlias (some value) then []
    else targets.map (fun target => (parent ++ (dotted target).getD [], .assignment))
  | .functionDef f => [(parent ++ [f.name], if f.isAsync then .asyncFunction else .function)]
  | .classDef name _ _ body =>
    (parent ++ [name], .class_) :: kindsDeclaredAll o (parent ++ [name]) body
  | .ifStmt test body orelse =>
    if o test then kindsDeclaredAll o parent body else kindsDeclaredAll o parent orelse
  | .import_ _ => []
  | .importFrom .. => []
  | .other _ body => kindsDeclaredAll o parent body

/-- The names several statements define. -/
def kindsDeclaredAll (o : Expr → Bool) (parent : Path) : List Stmt → List (Path × NodeKind)
  | [] => []
  | node :: nodes => kindsDeclared o parent node ++ kindsDeclaredAll o parent nodes

end

/-- What a name is according to its last definition. -/
def lastKind (l : List (Path × NodeKind)) (p : Path) : Option NodeKind :=
  ((l.filter (fun e => e.1 == p)).map Prod.snd).getLast?

end Paradigm.Spec
