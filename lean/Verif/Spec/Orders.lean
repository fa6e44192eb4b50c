import Verif.Model.Specialization
import Verif.Spec.Stars
import Verif.Spec.Stubs

/-!
# Orders of sets (specification)
-/

namespace Paradigm.Spec

mutual

/-- The tests in a statement, in whatever branch. -/
def testsOf : Stmt → List Expr
  | .classDef _ _ _ body => testsAll body
  | .ifStmt test body orelse => test :: (testsAll body ++ testsAll orelse)
  | .other _ body => testsAll body
  | _ => []

/-- The tests in several statements. -/
def testsAll : List Stmt → List Expr
  | [] => []
  | node :: nodes => testsOf node ++ testsAll nodes

end

mutual

/-- The modules that the imports in a statement of the module `m` name, in whatever branch. -/
def importedOf (isPackage : Path → Bool) (m : Path) : Stmt → List Path
  | .import_ names => names.map fun alias => pathFromString alias.name
  | .importFrom module _ level =>
    match toParentModulePath isPackage (module.map pathFromString) level m with
    | .ok target => [target]
    | .error _ => []
  | .classDef _ _ _ body => importedAll isPackage m body
  | .ifStmt _ body orelse => importedAll isPackage m body ++ importedAll isPackage m orelse
  | .other _ body => importedAll isPackage m body
  | _ => []

/-- The modules that the imports in several statements name. -/
def importedAll (isPackage : Path → Bool) (m : Path) : List Stmt → List Path
  | [] => []
  | node :: nodes => importedOf isPackage m node ++ importedAll isPackage m nodes

end

/-- A module that is not in `__specializations`. -/
def Elsewhere (m : Path) : Prop := m ≠ [] ∧ m.head? ≠ some "__specializations"

/-- No stub file is in a module `__specializations` or imports from one. -/
def NeverSpecializations (E : StubFiles) : Prop :=
  ∀ m body, E.source m = some body → Elsewhere m ∧ ∀ x ∈ importedAll E.isPackage m body, Elsewhere x

/-- A test of module `m` for which the order of its names does not matter: it reads one name at most, or
`m` has no star imports. -/
def PlainTest (E : StubFiles) (m : Path) (test : Expr) : Prop :=
  (∀ x ∈ loadedNames test, ∀ y ∈ loadedNames test, x = y) ∨ ∀ x, ¬ StarImports E m x

/-- The outcome of a test depends on what its names mean, not on the order in which they are written. -/
def ByMeaning (E : StubFiles) : Prop :=
  ∀ test ns ns', ns.Perm ns' → E.condition test ns = E.condition test ns'

/-- The tables say the same: they are equal, but the references of a module may be written in another
order. -/
structure SameTables (a b : Stubs) : Prop where
  definitions : a.definitions = b.definitions
  submodules : a.submodules = b.submodules
  superclasses : a.superclasses = b.superclasses
  nodes : a.rawAstNodes = b.rawAstNodes
  kinds : a.nodesKinds = b.nodesKinds
  modules : ∀ m, (a.references.lookup m).isSome = (b.references.lookup m).isSome
  references : ∀ m path, ((a.references.lookup m).getD []).lookup path
    = ((b.references.lookup m).getD []).lookup path

/-- The same files, with another order of sets. -/
def reordered (E : StubFiles) (o : SetOrder) : StubFiles :=
  { E with order := o.order, order_perm := o.order_perm }

/-- No import leads to a module `__specializations`, and no class is in one. -/
structure NotImported (s : ParseState) : Prop where
  submodules : ∀ m subs, s.submodules.lookup m = some subs → ["__specializations"] ∉ subs
  references : ∀ m refs, s.references.lookup m = some refs → ∀ path q, refs.lookup path = some q →
    q.1 ≠ ["__specializations"] ∧ q.1 ++ q.2 ≠ ["__specializations"]
  superclasses : ∀ m classes, s.superclasses.lookup m = some classes → ∀ path supers,
    classes.lookup path = some supers → ∀ q ∈ supers, q.1 ≠ ["__specializations"]
  bases : ∀ path, s.classesBases.lookup (["__specializations"], path) = none
  generics : ∀ path, s.generics.lookup (["__specializations"], path) = none

end Paradigm.Spec
