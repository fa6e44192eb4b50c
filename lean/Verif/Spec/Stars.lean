import Verif.Model.Stubs

/-!
# Star imports and the depth of statements

Independent of the parser (but for the meaning of a module name in an import, see `C44`).
-/

namespace Paradigm.Spec

mutual

/-- The modules a statement of the module `m` star-imports, in whatever branch. -/
def starsOf (isPackage : Path → Bool) (m : Path) : Stmt → List Path
  | .importFrom module names level =>
    match toParentModulePath isPackage (module.map pathFromString) level m with
    | .ok target => if names.any (fun alias => alias.name == "*") then [target] else []
    | .error _ => []
  | .classDef _ _ _ body => starsAll isPackage m body
  | .ifStmt _ body orelse => starsAll isPackage m body ++ starsAll isPackage m orelse
  | .other _ body => starsAll isPackage m body
  | _ => []

/-- The modules several statements star-import. -/
def starsAll (isPackage : Path → Bool) (m : Path) : List Stmt → List Path
  | [] => []
  | node :: nodes => starsOf isPackage m node ++ starsAll isPackage m nodes

end

/-- The source of the module `m` star-imports `sub`. -/
def StarImports (E : StubFiles) (m sub : Path) : Prop :=
  ∃ body, E.source m = some body ∧ sub ∈ starsAll E.isPackage m body

/-- There are finitely many sources, no module star-imports itself (directly or not), and tests do
not run into the recursion limit by themselves. -/
structure Layered (E : StubFiles) : Prop where
  finite : ∃ all : List Path, ∀ m body, E.source m = some body → m ∈ all
  acyclic : ∃ rank : Path → Nat, ∀ m sub, StarImports E m sub → rank sub < rank m
  tests : ∀ test ns, E.condition test ns ≠ .error .recursionError

end Paradigm.Spec
