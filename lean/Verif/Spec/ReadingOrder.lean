import Verif.Spec.WrittenBases
import Verif.Spec.Imports

/-!
# Stub files that use only what comes before (specification)

Independent of the parser (but for the meaning of a module name in an import, see `C44`).
-/

namespace Paradigm.Spec

/-- The dotted name begins with one of the names. -/
def BeginsBy (names : List String) (path : Path) : Prop := ∃ x ∈ names, path.head? = some x

mutual

/-- A statement of module `m`, in whatever branch of tests: it star-imports only modules of `before`; `names` has the
names that begin the arguments of bases; what is imported with such a name is of the modules `before`, and what is
an alias by such a name is one of such a name. -/
def OnlyBefore (isPackage : Path → Bool) (before : List Path) (names : List String) (m : Path) : Stmt → Prop
  | .annAssign target _ value => ∀ e ∈ value, ∀ q, dotted e = some q → ∀ p, dotted target = some p →
      BeginsBy names p → BeginsBy names q
  | .assign targets value => ∀ q, dotted value = some q → ∀ target ∈ targets, ∀ p, dotted target = some p →
      BeginsBy names p → BeginsBy names q
  | .classDef _ bases _ body => (∀ value slice load, .subscript value slice load ∈ bases →
      ∀ e ∈ argLeaves (.subscript value slice load), ∀ p, dotted e = some p → BeginsBy names p) ∧
      OnlyBeforeAll isPackage before names m body
  | .ifStmt _ body orelse => OnlyBeforeAll isPackage before names m body ∧ OnlyBeforeAll isPackage before names m orelse
  | .import_ aliases => ∀ a ∈ aliases, ∀ x ∈ imported a, BeginsBy names x.1 → x.2 ∈ before
  | .importFrom module aliases level => ∀ target,
      toParentModulePath isPackage (module.map pathFromString) level m = .ok target → ∀ a ∈ aliases,
      (a.name = "*" → target ∈ before) ∧ (BeginsBy names (match a.asname with
        | some name => [name]
        | none => pathFromString a.name) → target ∈ before)
  | .functionDef _ => True
  | .other _ body => OnlyBeforeAll isPackage before names m body

/-- Several statements. -/
def OnlyBeforeAll (isPackage : Path → Bool) (before : List Path) (names : List String) (m : Path) : List Stmt → Prop
  | [] => True
  | node :: nodes => OnlyBefore isPackage before names m node ∧ OnlyBeforeAll isPackage before names m nodes

end

/-- The modules are different, and each uses only itself and the modules before it, the first of which is
`builtins`. -/
structure InOrder (E : StubFiles) (names : List String) (modules : List Path) : Prop where
  once : (["builtins"] :: modules).Nodup
  before : ∀ before m after, ["builtins"] :: modules = before ++ m :: after → ∀ body, E.source m = some body →
    OnlyBeforeAll E.isPackage (before ++ [m]) names m body

end Paradigm.Spec
