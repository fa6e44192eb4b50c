import Verif.Model.Stubs

/-!
# Model of `catalog.qualified_path_from`

Live objects are given by the attributes the function reads. Modelled: CPython, where builtin
functions and methods have the same class and members of classes with slots are not registered.
-/

namespace Paradigm

/-- The value of an attribute (`__module__`) that is expected to be a text. -/
inductive TextAttr where
  | none
  | text (value : String)
  | other
  deriving DecidableEq, Repr

/-- `__self__` of a builtin: a class with its `__module__`, a module with its `__name__` and
`__spec__.name` (if there is a `__spec__`), `None` or another object. Simplified: modules have
the attributes `__name__` and `__spec__`, and names of modules are texts. -/
inductive BuiltinSelf where
  | type (module_ : TextAttr)
  | module (name : String) (spec : Option String)
  | none
  | instance
  deriving DecidableEq, Repr

/-- An object by the class `qualified_path_from` dispatches on; `descriptor` are the method
descriptors, method wrappers and wrapper descriptors with `__objclass__.__module__`. Simplified:
`__qualname__` is a text. -/
inductive Named where
  | builtin (self : BuiltinSelf) (qualname : String)
  | function (module_ : TextAttr) (qualname : String)
  | descriptor (ownerModule : TextAttr) (qualname : String)
  | cls (module_ : TextAttr) (qualname : String)
  | other
  deriving DecidableEq, Repr

/-- `path_from_string` of any value, `/repo/paradigm/_core/catalog.py:13-15`. -/
def pathFromAttr : TextAttr → Except PyErr Path
  | .text value => .ok (pathFromString value)
  | _ => .error .assertionError

/-- The name chosen by `module_path_from_module`, `/repo/paradigm/_core/catalog.py:95-98`, and by
`qualified_path_from`, `:41-43`. -/
def moduleName (name : String) (spec : Option String) : String :=
  match spec with
  | none => name
  | some specName => specName

/-- `qualified_path_from`, `/repo/paradigm/_core/catalog.py:26-88`. -/
def qualifiedPathFrom : Named → Except PyErr QPath
  | .builtin self qualname =>
    match self with
    | .type module_ => do
      let m ← pathFromAttr module_
      return (m, pathFromString qualname)
    | .module name spec => .ok (pathFromString (moduleName name spec), pathFromString qualname)
    | .none => .ok ([], pathFromString qualname)
    | .instance => .ok ([], [])
  | .function module_ qualname =>
    match module_ with
    | .none => .ok ([], pathFromString qualname)
    | _ => do
      let m ← pathFromAttr module_
      return (m, pathFromString qualname)
  | .descriptor ownerModule qualname => do
    let m ← pathFromAttr ownerModule
    return (m, pathFromString qualname)
  | .cls module_ qualname => do
    let m ← pathFromAttr module_
    return (m, pathFromString qualname)
  | .other => .ok ([], [])

/-- `object_path_from_callable`, `/repo/paradigm/_core/catalog.py:101-103`. -/
def objectPathFromCallable (value : Named) : Except PyErr Path := do
  let q ← qualifiedPathFrom value
  return q.2

end Paradigm
