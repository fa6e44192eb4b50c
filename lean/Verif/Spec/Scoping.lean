import Verif.Model.Scoping

/-!
# What it means for a name to be defined

Independent of the resolution algorithm.
-/

namespace Paradigm.Spec

/-- The dotted path is bound in the nested scope. -/
def Defines : Scope → Path → Prop
  | _, [] => True
  | scope, name :: path => ∃ inner, scope.entries.lookup name = some inner ∧ Defines inner path

/-- The module is known to the tables. -/
def Known (T : Tables) (m : Path) : Prop := ∃ scope, T.definitions.lookup m = some scope

/-- The module is known and binds the dotted path by a definition of its own. -/
def DefinedIn (T : Tables) (m path : Path) : Prop :=
  ∃ scope, T.definitions.lookup m = some scope ∧ Defines scope path

/-- `s` is star-imported by the known module `m`. -/
def Star (T : Tables) (m s : Path) : Prop :=
  Known T m ∧ ∃ ss, T.submodules.lookup m = some ss ∧ s ∈ ss

/-- Reachable by zero or more star imports. -/
inductive StarReach (T : Tables) : Path → Path → Prop where
  | refl (m : Path) : StarReach T m m
  | step {m s d : Path} : Star T m s → StarReach T s d → StarReach T m d

/-- The answer of resolving from module level, once the interpreter allows enough nested calls:
it does not change when more are allowed. -/
def Answers (T : Tables) (m parent object : Path) (visited : List Path)
    (r : Except PyErr QPath) : Prop :=
  ∃ n, ∀ k, n ≤ k → resolve T k m parent object visited = r

/-- Resolution ends: there is an answer that is not "recursion too deep". -/
def Terminates (T : Tables) (m parent object : Path) (visited : List Path) : Prop :=
  ∃ r, r ≠ .error .recursionError ∧ Answers T m parent object visited r

/-- `ρ` ranks what is looked up so that imports and bases are not circular: a star import does not
increase the rank, an explicit import or alias and a base class decrease it, whatever is looked up
inside of the thing imported (`rest`). Modules may import each other. -/
structure Ranked (T : Tables) (ρ : Path → Path → Nat) : Prop where
  append : ∀ m p rest, ρ m p ≤ ρ m (p ++ rest)
  star : ∀ m s p, Star T m s → ρ s p ≤ ρ m p
  builtin : ∀ m p, Known T m → ρ builtinsPath p ≤ ρ m p
  object : ∀ m head p rest, Known T m → head ≠ "object" →
    ρ builtinsPath ("object" :: rest) < ρ m (head :: (p ++ rest))
  superclass : ∀ m c ss s rest, Known T m → T.supers m c = some ss → s ∈ ss →
    ρ s.1 (s.2 ++ rest) < ρ m (c ++ rest)
  reference : ∀ m refs p rm ro rest, Known T m → T.references.lookup m = some refs →
    refs.lookup p = some (rm, ro) → ρ rm (ro ++ rest) < ρ m (p ++ rest)
  referenceModule : ∀ m refs p rm ro rest, Known T m → T.references.lookup m = some refs →
    refs.lookup p = some (rm, ro) → ρ (rm ++ ro) rest < ρ m (p ++ rest)

end Paradigm.Spec
