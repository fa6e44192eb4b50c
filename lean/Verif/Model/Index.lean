import Verif.Model.Catalog
import Verif.Model.Scoping

/-!
# Model of `index.py` and `namespacing.py`
-/

namespace Paradigm

/-- A live object: a class or anything else, each with its identity. -/
inductive Value where
  | cls (id : Nat)
  | other (id : Nat)
  deriving DecidableEq, Repr

/-- The live objects of an interpreter: `vars(x).items()` of modules and classes, `__module__` and
`__qualname__` of classes, what `catalog.qualified_path_from` reads of other objects and
`import_module` (`none` when it raises an `Exception`).
Simplified: the graph does not change during the traversal; classes are equal only to themselves;
attributes of modules and classes are the entries of `vars` (no descriptors). -/
structure World where
  vars : Nat → List (String × Value)
  classes : Nat → TextAttr × String
  others : Nat → Named
  importModule : Path → Option Nat

/-- The object as `catalog.qualified_path_from` sees it. -/
def World.named (W : World) : Value → Named
  | .cls id => .cls (W.classes id).1 (W.classes id).2
  | .other id => W.others id

/-- `catalog.qualified_path_from`, `/repo/paradigm/_core/catalog.py:26-88`. -/
def World.qualified (W : World) (v : Value) : Except PyErr QPath := qualifiedPathFrom (W.named v)

/-- `namespacing.search`, `/repo/paradigm/_core/namespacing.py:15-19`; `none` is `ObjectNotFound`.
Simplified: anything but a class has no attributes. -/
def World.search (W : World) (namespace_ : Nat) : Path → Option Value
  | [] => none
  | [name] => (W.vars namespace_).lookup name
  | name :: rest =>
    match (W.vars namespace_).lookup name with
    | some (.cls id) => W.search id rest
    | _ => none

/-- `paths.setdefault(q[0], {}).setdefault(q[1], []).append(location)`,
`/repo/paradigm/_core/index.py:38-40,53-55`. -/
def addLocation (paths : Index) (q location : QPath) : Index :=
  dictUpdate paths q.1 [] fun d => dictUpdate d q.2 [] (· ++ [location])

/-- A loop that may raise. -/
def foldExcept {α β : Type} (f : β → α → Except PyErr β) : β → List α → Except PyErr β
  | b, [] => .ok b
  | b, a :: as =>
    match f b a with
    | .error e => .error e
    | .ok b => foldExcept f b as

/-- The body of the loop of `_index_module_or_type`, `/repo/paradigm/_core/index.py:28-55`; `inner` is
the recursive call. -/
def indexEntry (W : World) (inner : Nat → Path → List Nat → Index → Except PyErr Index) (m parent : Path)
    (visited : List Nat) (paths : Index) (entry : String × Value) : Except PyErr Index :=
  match entry.2 with
  | .cls id =>
    if visited.contains id then .ok paths
    else
      match W.qualified entry.2 with
      | .error e => .error e
      | .ok q =>
        if q.1.isEmpty && q.2.isEmpty then .error .assertionError
        else inner id (parent ++ [entry.1]) (id :: visited)
          (addLocation paths q (m, parent ++ [entry.1]))
  | .other _ =>
    match W.qualified entry.2 with
    | .error e => .error e
    | .ok q =>
      if q.2.isEmpty then .ok paths else .ok (addLocation paths q (m, parent ++ [entry.1]))

/-- `_index_module_or_type`, `/repo/paradigm/_core/index.py:22-55`. The first number is that of the
nested calls the interpreter allows. -/
def indexNamespace (W : World) : Nat → Path → Nat → Path → List Nat → Index → Except PyErr Index
  | 0, _, _, _, _, _ => .error .recursionError
  | n + 1, m, namespace_, parent, visited, paths =>
    foldExcept (indexEntry W (fun id => indexNamespace W n m id) m parent visited) paths
      (W.vars namespace_)

/-- `_index_module_path`, `/repo/paradigm/_core/index.py:58-73`. Not modelled: the warning. -/
def indexModule (W : World) (n : Nat) (paths : Index) (m : Path) : Except PyErr Index :=
  match W.importModule m with
  | none => .ok paths
  | some namespace_ => indexNamespace W n m namespace_ [] [] paths

/-- `from_modules`, `/repo/paradigm/_core/index.py:14-19`. -/
def indexModules (W : World) (n : Nat) (modules : List Path) : Except PyErr Index :=
  foldExcept (indexModule W n) [] modules

end Paradigm
