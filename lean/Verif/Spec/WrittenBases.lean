import Verif.Spec.Classes
import Verif.Spec.Stars
import Verif.Spec.Kinds
import Verif.Spec.Reading
import Verif.Spec.Linear
import Verif.Spec.Definitions

/-!
# Hierarchies of classes written in stub files (specification)

Independent of the parser.
-/

namespace Paradigm.Spec

/-- The names `import a.b` and `import a.b as c` make, and the modules they are for. -/
def imported (a : Alias) : List (Path × Path) :=
  match a.asname with
  | some name => [([name], pathFromString a.name)]
  | none => (List.range (pathFromString a.name).length).map fun i =>
      ((pathFromString a.name).take (i + 1), (pathFromString a.name).take (i + 1))

mutual

/-- The names a statement of module `m` makes other names for something: imports and aliases, where `o` says which
tests hold, with what they name if that is said by an import. `import a.b` makes `a` and `a.b`. -/
def refers (isPackage : Path → Bool) (o : Expr → Bool) (m : Path) : Stmt → List (Path × Option QPath)
  | .annAssign target _ value => if isAlias value then [((dotted target).getD [], none)] else []
  | .assign targets value =>
    if isAlias (some value) then targets.map fun target => ((dotted target).getD [], none) else []
  | .classDef _ _ _ body => refersAll isPackage o m body
  | .ifStmt test body orelse =>
    if o test then refersAll isPackage o m body else refersAll isPackage o m orelse
  | .import_ names => names.flatMap fun a => (imported a).map fun x => (x.1, some (x.2, []))
  | .importFrom module names level => names.map fun a => (
      match a.asname with
      | some name => [name]
      | none => pathFromString a.name,
      match toParentModulePath isPackage (module.map pathFromString) level m with
      | .ok target => some (target, pathFromString a.name)
      | .error _ => none)
  | .functionDef _ => []
  | .other _ body => refersAll isPackage o m body

/-- The names several statements make. -/
def refersAll (isPackage : Path → Bool) (o : Expr → Bool) (m : Path) : List Stmt → List (Path × Option QPath)
  | [] => []
  | node :: nodes => refers isPackage o m node ++ refersAll isPackage o m nodes

end

mutual

/-- The names a statement of module `m` imports, outside of classes, and what they are for. -/
def imports (isPackage : Path → Bool) (o : Expr → Bool) (m : Path) : Stmt → List (Path × QPath)
  | .importFrom module names level =>
    match toParentModulePath isPackage (module.map pathFromString) level m with
    | .ok target => (names.filter fun a => a.name != "*" && pathFromString a.name == [a.name]).map
        fun a => ([a.asname.getD a.name], target, [a.name])
    | .error _ => []
  | .import_ names => names.flatMap fun a => (imported a).map fun x => (x.1, x.2, [])
  | .ifStmt test body orelse =>
    if o test then importsAll isPackage o m body else importsAll isPackage o m orelse
  | .other _ body => importsAll isPackage o m body
  | _ => []

/-- The names several statements import. -/
def importsAll (isPackage : Path → Bool) (o : Expr → Bool) (m : Path) : List Stmt → List (Path × QPath)
  | [] => []
  | node :: nodes => imports isPackage o m node ++ importsAll isPackage o m nodes

end

/-- No name that says how a class is made. -/
def OrdinaryBase (q : QPath) : Prop :=
  q ≠ (["typing"], ["NamedTuple"]) ∧ q ≠ (["typing"], ["Protocol"]) ∧ q ≠ (["typing"], ["Generic"])

/-- The list tells of every beginning of the name what it is for, and by none of them the name says how a class is
made. -/
def ToldBy (A : List (Path × Option QPath)) (path : Path) : Prop :=
  path ≠ [] ∧ ∀ k, 0 < k → k ≤ path.length →
    ∃ a ∈ A, a.1 = path.take k ∧ ∀ q, a.2 = some q → OrdinaryBase (q.1, q.2 ++ path.drop k)

/-- The bases are plain or dotted names that the list tells of. -/
def NamesOnly (A : List (Path × Option QPath)) (bases : List Expr) : Prop :=
  ∀ e ∈ bases, ∃ path, dotted e = some path ∧ ToldBy A path

/-- In the source `body` of module `m` the class `p` has names that `A` tells of as bases wherever it is stated,
which are not other names for anything but what they are said to be in `A`, and there are no star imports. -/
structure PlainlyDerived (isPackage : Path → Bool) (o : Expr → Bool) (m : Path) (body : List Stmt) (p : Path)
    (A : List (Path × Option QPath)) : Prop where
  bases : ∀ e ∈ classDefsAll o [] body, e.1 = p → NamesOnly A e.2
  own : ∀ a ∈ A, ∀ r ∈ refersAll isPackage o m body, r.1 = a.1 → a.2.isSome = true ∧ r.2 = a.2
  stars : starsAll isPackage m body = []

/-- What the base `e` means in module `m`: a plain name the class of that name, what is imported by that name if
the module defines no such name, or the builtin one if nor does it import one; a dotted name that begins with the
name of an imported module a class of that module. -/
inductive BaseIs (E : StubFiles) (T : Tables) (o : Expr → Bool) (m : Path) (body : List Stmt)
    (A : List (Path × Option QPath)) (e : Expr) : QPath → Prop where
  | own {b : String} (he : dotted e = some [b]) (h : lastKind (kindsDeclaredAll o [] body) [b] = some .class_) :
      BaseIs E T o m body A e (m, [b])
  | imported {b : String} {q : QPath} (he : dotted e = some [b]) (hno : ¬ DefinedIn T m [b])
      (hi : ([b], q) ∈ importsAll E.isPackage o m body) (hm : q.1 ≠ ["__specializations"]) (h : DefinedIn T q.1 q.2) :
      BaseIs E T o m body A e q
  | builtin {b : String} (he : dotted e = some [b]) (hno : ¬ DefinedIn T m [b]) (hb : ([b], none) ∈ A)
      (h : DefinedIn T ["builtins"] [b]) : BaseIs E T o m body A e (["builtins"], [b])
  | inside {x : String} {xs : Path} {b : String} {target : Path} (he : dotted e = some (x :: xs ++ [b]))
      (hno : ¬ DefinedIn T m [x]) (hb : (x :: xs ++ [b], none) ∈ A)
      (hi : (x :: xs, target, []) ∈ importsAll E.isPackage o m body) (hm : target ≠ ["__specializations"])
      (h : DefinedIn T target [b]) : BaseIs E T o m body A e (target, [b])

/-- The class is the top level class of a stub file that was read to its end, and its bases are written there as
names that mean `qs`. `t` is what was read. -/
structure WrittenClass (E : StubFiles) (o : Expr → Bool) (T : Tables) (t : ParseState) (c : QPath)
    (qs : List QPath) : Prop where
  read : ReadToEnd E t c.1
  module : c.1 ≠ ["__specializations"] ∧ c.1 ≠ ["typing"]
  written : ∃ name body A exprs, c.2 = [name] ∧ E.source c.1 = some body ∧
    PlainlyDerived E.isPackage o c.1 body [name] A ∧ lastAt (classDefsAll o [] body) [name] = some exprs ∧
    lastKind (kindsDeclaredAll o [] body) [name] = some .class_ ∧ Pointwise (BaseIs E T o c.1 body A) exprs qs

/-- The bases Python gives to a class that is written with the bases `qs`. -/
def implicitBases (c : QPath) (qs : List QPath) : List QPath :=
  if qs = [] ∧ c ≠ objectClass then [objectClass] else qs

end Paradigm.Spec
