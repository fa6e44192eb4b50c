import Verif.Model.Objects

/-!
# Name resolution in stub tables

Models `/repo/paradigm/_core/scoping.py` and the index filter of `/repo/paradigm/_core/modules.py`.
-/

namespace Paradigm

/-- `catalog.Path`, `/repo/paradigm/_core/catalog.py:8`. -/
abbrev Path := List String

/-- `catalog.QualifiedPath`, `/repo/paradigm/_core/catalog.py:9`. -/
abbrev QPath := Path × Path

/-- Python dictionaries as association lists in insertion order (`d[key]` is `d.lookup key`). -/
abbrev Dict (α β : Type) := List (α × β)

/-- `Scope = Mapping[str, Scope]`, `/repo/paradigm/_core/scoping.py:12`. -/
inductive Scope where
  | mk (entries : List (String × Scope))

/-- The mapping behind a scope. -/
def Scope.entries : Scope → List (String × Scope)
  | .mk entries => entries

/-- `scope[name]`, `none` for `KeyError`. -/
def Scope.get? (scope : Scope) (name : String) : Option Scope :=
  scope.entries.lookup name

/-- `scope_contains_path`, `/repo/paradigm/_core/scoping.py:19-25`. -/
def scopeContains (scope : Scope) : Path → Bool
  | [] => true
  | part :: path =>
    match scope.get? part with
    | none => false
    | some scope => scopeContains scope path

/-- The tables of `stubs.py` used by resolution (`/repo/paradigm/_core/scoping.py:52-55`). -/
structure Tables where
  definitions : Dict Path Scope
  references : Dict Path (Dict Path QPath)
  submodules : Dict Path (List Path)
  superclasses : Dict Path (Dict Path (List QPath))

namespace Tables

/-- `modules_submodules.get(module_path, [])`. -/
def subs (T : Tables) (m : Path) : List Path := (T.submodules.lookup m).getD []

/-- `modules_superclasses.get(module_path, {})`, then `[sub_path]` (`none` for `KeyError`). -/
def supers (T : Tables) (m path : Path) : Option (List QPath) :=
  ((T.superclasses.lookup m).getD []).lookup path

end Tables

/-- `catalog.module_path_from_module(builtins)`, `/repo/paradigm/_core/catalog.py:95-98`. -/
def builtinsPath : Path := ["builtins"]

/-- A loop `for x in xs: try: return f(x) except ObjectNotFound: continue`; `none` if it falls
through. -/
def tryEach {α β : Type} (f : α → Except PyErr β) : List α → Option (Except PyErr β)
  | [] => none
  | x :: xs =>
    match f x with
    | .error .objectNotFound => tryEach f xs
    | r => some r

/-- The walk of `resolve_object_path` through nested scopes, `:79-83`: the index of the first name
that is missing, counted from `index`; `none` if none is. -/
def missingIndex (scope : Scope) (index : Nat) : Path → Option Nat
  | [] => none
  | name :: names =>
    match scope.get? name with
    | some scope => missingIndex scope (index + 1) names
    | none => some index

/-- The search for the longest referenced prefix, `/repo/paradigm/_core/scoping.py:128-135`:
prefixes of lengths `k`, `k-1`, ..., `1`. -/
def longestReference (references : Dict Path QPath) (path : Path) : Nat → Option (Nat × QPath)
  | 0 => none
  | k + 1 =>
    match references.lookup (path.take (k + 1)) with
    | some referent => some (k + 1, referent)
    | none => longestReference references path k

/-- `resolve_object_path`, `/repo/paradigm/_core/scoping.py:48-165`. The first argument is the
number of nested calls the interpreter still allows; running out of it is `RecursionError`.
`visited` is `*visited_modules_paths` (order irrelevant). -/
def resolve (T : Tables) : Nat → Path → Path → Path → List Path → Except PyErr QPath
  | 0, _, _, _, _ => .error .recursionError
  | n + 1, m, parent, object, visited =>
    match T.definitions.lookup m with
    | none => .error .objectNotFound
    | some defs =>
      match object with
      | [] => .ok (m, [])
      | head :: rest =>
        if !scopeContains defs parent then .error .assertionError
        else if !parent.isEmpty && scopeContains defs (parent ++ [head]) then
          resolve T n m [] (parent ++ head :: rest) visited
        else
          match defs.get? head with
          | some scope =>
            match missingIndex scope 1 rest with
            | none => .ok (m, head :: rest)
            | some index =>
              match tryEach (fun s : QPath => resolve T n s.1 []
                  (s.2 ++ (head :: rest).drop index) (visited ++ [m]))
                  ((T.supers m ((head :: rest).take index)).getD []) with
              | some r => r
              | none =>
                if head ≠ "object" then
                  resolve T n builtinsPath [] ("object" :: (head :: rest).drop index) visited
                else .error .objectNotFound
          | none =>
            match tryEach (fun s => resolve T n s [] (head :: rest) (visited ++ [m]))
                ((T.subs m).filter (fun s => !visited.contains s)) with
            | some r => r
            | none =>
              match T.references.lookup m with
              | none => .error .keyError
              | some refs =>
                match longestReference refs (head :: rest) (rest.length + 1) with
                | some (k, rm, ro) =>
                  match resolve T n rm [] ro (visited ++ [m]) with
                  | .ok (rm, ro) =>
                    resolve T n rm [] (ro ++ (head :: rest).drop k) (visited ++ [m])
                  | .error .objectNotFound =>
                    if ro.length ≠ 1 then .error .assertionError
                    else if (T.definitions.lookup (rm ++ ro)).isNone then .error .assertionError
                    else resolve T n (rm ++ ro) [] ((head :: rest).drop k) (visited ++ [m])
                  | .error e => .error e
                | none =>
                  match T.definitions.lookup builtinsPath with
                  | none => .error .keyError
                  | some bs =>
                    if scopeContains bs (head :: rest) then .ok (builtinsPath, head :: rest)
                    else .error .objectNotFound

/-- `contains_object_path`, `/repo/paradigm/_core/scoping.py:28-45`; errors other than
`ObjectNotFound` propagate. -/
def containsObjectPath (T : Tables) (n : Nat) (m parent object : Path) : Except PyErr Bool :=
  match resolve T n m parent object [] with
  | .ok _ => .ok true
  | .error .objectNotFound => .ok false
  | .error e => .error e

/-- `index.QualifiedPaths`, `/repo/paradigm/_core/index.py:9-11`. -/
abbrev Index := Dict Path (Dict Path (List QPath))

/-- `[x for x in xs if f(x)]` where `f` may raise. -/
def filterExcept {α : Type} (f : α → Except PyErr Bool) : List α → Except PyErr (List α)
  | [] => .ok []
  | x :: xs =>
    match f x with
    | .error e => .error e
    | .ok b =>
      match filterExcept f xs with
      | .error e => .error e
      | .ok ys => .ok (if b then x :: ys else ys)

/-- A loop filling a fresh dictionary: values are computed by `f`, empty ones are skipped,
`/repo/paradigm/_core/modules.py:60-80` (both levels have this shape). -/
def filterEntries {κ α β : Type} (f : α → Except PyErr (List β)) :
    Dict κ α → Except PyErr (Dict κ (List β))
  | [] => .ok []
  | (k, v) :: d =>
    match f v with
    | .error e => .error e
    | .ok v =>
      match filterEntries f d with
      | .error e => .error e
      | .ok d => .ok (if v.isEmpty then d else (k, v) :: d)

/-- `_to_supported_qualified_paths`, `/repo/paradigm/_core/modules.py:46-80`. Simplified: the keys of
a dictionary are distinct, so assigning them in iteration order appends. -/
def supportedPaths (T : Tables) (n : Nat) (index : Index) : Except PyErr Index :=
  filterEntries (filterEntries
    (filterExcept (fun q : QPath => containsObjectPath T n q.1 [] q.2))) index

end Paradigm
