import Verif.Model.Stubs
import Verif.Spec.Scoping
import Verif.Spec.Imports

/-!
# What a stub file declares

Independent of the parser.
-/

namespace Paradigm.Spec

/-- The dotted name an expression consists of. -/
def dotted : Expr → Option Path
  | .name id _ => some [id]
  | .attribute value attr _ => (dotted value).map (· ++ [attr])
  | _ => none

/-- Is the assigned value another name, so that the assignment is an alias? -/
def isAlias : Option Expr → Bool
  | some value => (dotted value).isSome
  | none => false

mutual

/-- The definitions a statement makes in the class or module `parent`, in source order, where `o`
says which tests hold. Aliases and imports define nothing of their own. -/
def declared (o : Expr → Bool) (parent : Path) : Stmt → List (Path × Stmt)
  | .annAssign target annotation value =>
    if isAlias value then []
    else [(parent ++ (dotted target).getD [], .annAssign target annotation value)]
  | .assign targets value =>
    if isAlias (some value) then []
    else targets.map (fun target => (parent ++ (dotted target).getD [], .assign targets value))
  | .functionDef f => [(parent ++ [f.name], .functionDef f)]
  | .classDef name _ _ body => declaredAll o (parent ++ [name]) body
  | .ifStmt test body orelse =>
    if o test then declaredAll o parent body else declaredAll o parent orelse
  | .import_ _ => []
  | .importFrom .. => []
  | .other _ body => declaredAll o parent body

/-- The definitions of several statements. -/
def declaredAll (o : Expr → Bool) (parent : Path) : List Stmt → List (Path × Stmt)
  | [] => []
  | node :: nodes => declared o parent node ++ declaredAll o parent nodes

end

mutual

/-- The classes a statement makes, by path. -/
def classPaths (o : Expr → Bool) (parent : Path) : Stmt → List Path
  | .classDef name _ _ body => (parent ++ [name]) :: classPathsAll o (parent ++ [name]) body
  | .ifStmt test body orelse =>
    if o test then classPathsAll o parent body else classPathsAll o parent orelse
  | .other _ body => classPathsAll o parent body
  | _ => []

/-- The classes several statements make. -/
def classPathsAll (o : Expr → Bool) (parent : Path) : List Stmt → List Path
  | [] => []
  | node :: nodes => classPaths o parent node ++ classPathsAll o parent nodes

end

mutual

/-- The statement with every branch that is not taken emptied. -/
def prune (o : Expr → Bool) : Stmt → Stmt
  | .classDef name bases decorators body => .classDef name bases decorators (pruneAll o body)
  | .ifStmt test body orelse =>
    if o test then .ifStmt test (pruneAll o body) [] else .ifStmt test [] (pruneAll o orelse)
  | .other tag body => .other tag (pruneAll o body)
  | node => node

def pruneAll (o : Expr → Bool) : List Stmt → List Stmt
  | [] => []
  | node :: nodes => prune o node :: pruneAll o nodes

end

/-- The nodes recorded for an object of a module. -/
def nodesAt (s : ParseState) (m path : Path) : List Stmt :=
  (((s.nodes.lookup m).getD []).lookup path).getD []

/-- The kind recorded for an object of a module. -/
def kindAt (s : ParseState) (m path : Path) : Option NodeKind :=
  ((s.kinds.lookup m).getD []).lookup path

/-- The module defines the path. -/
def DefinedAt (s : ParseState) (m path : Path) : Prop :=
  ∃ scope, s.definitions.lookup m = some scope ∧ Defines scope path

/-- A node or a kind is recorded for the path. -/
def Recorded (s : ParseState) (m path : Path) : Prop :=
  (∃ d nodes, s.nodes.lookup m = some d ∧ d.lookup path = some nodes) ∨
  (∃ d kind, s.kinds.lookup m = some d ∧ d.lookup path = some kind)

/-- The tables agree on the module. -/
structure SameAt (s t : ParseState) (m : Path) : Prop where
  nodes : t.nodes.lookup m = s.nodes.lookup m
  kinds : t.kinds.lookup m = s.kinds.lookup m
  definitions : t.definitions.lookup m = s.definitions.lookup m
  references : t.references.lookup m = s.references.lookup m
  submodules : t.submodules.lookup m = s.submodules.lookup m
  superclasses : t.superclasses.lookup m = s.superclasses.lookup m
  classesBases : ∀ p, t.classesBases.lookup (m, p) = s.classesBases.lookup (m, p)
  generics : ∀ p, t.generics.lookup (m, p) = s.generics.lookup (m, p)

/-- The statements declared at a path. -/
def declaredAt (l : List (Path × Stmt)) (p : Path) : List Stmt :=
  (l.filter (fun e => e.1 == p)).map Prod.snd

/-- The outcomes of tests do not depend on what their names were resolved to. -/
def Decides (E : StubFiles) (o : Expr → Bool) : Prop :=
  ∀ test ns b, E.condition test ns = .ok b → b = o test

/-- The files with every branch not taken emptied. -/
def pruned (E : StubFiles) (o : Expr → Bool) : StubFiles :=
  { E with source := fun m => (E.source m).map (pruneAll o) }

/-- The names an expression reads. -/
def loadedNames (test : Expr) : List String :=
  (subtrees test).filterMap fun e =>
    match e with
    | .name id true => some id
    | _ => none

/-- Tests evaluate to `o` once every name they read is supplied. -/
def Evaluates (E : StubFiles) (o : Expr → Bool) : Prop :=
  ∀ test ns, (∀ name ∈ loadedNames test, name ∈ ns.map Prod.fst) → E.condition test ns = .ok (o test)

end Paradigm.Spec
