import Verif.Spec.Index

/-!
# How Python names definitions (specification)
-/

namespace Paradigm.Spec

/-- What encloses a definition. -/
inductive Enclosing where
  | cls (name : String)
  | function (name : String)

/-- `__qualname__` of what is defined as `name` inside of the scopes, the outermost first. -/
def qualname : List Enclosing → String → String
  | [], name => name
  | .cls c :: scopes, name => c ++ "." ++ qualname scopes name
  | .function f :: scopes, name => f ++ ".<locals>." ++ qualname scopes name

/-- The names on the way to what is defined as `name` inside of the scopes. -/
def steps : List Enclosing → String → Path
  | [], name => [name]
  | .cls c :: scopes, name => c :: steps scopes name
  | .function f :: scopes, name => f :: "<locals>" :: steps scopes name

/-- The names are those of definitions, which have no dots and are not `<locals>`. -/
def NamesIn (scopes : List Enclosing) (name : String) : Prop :=
  ∀ x ∈ name :: scopes.map (fun | .cls c => c | .function f => f), '.' ∉ x.toList ∧ x ≠ "<locals>"

/-- The name of a module: at least one part, no dots in the parts. -/
def ModuleParts (parts : Path) : Prop := parts ≠ [] ∧ ∀ x ∈ parts, '.' ∉ x.toList

/-- The parts joined by dots. -/
def dottedText : Path → String
  | [] => ""
  | [x] => x
  | x :: y :: parts => x ++ "." ++ dottedText (y :: parts)

/-- The object has been defined as `name` inside of the scopes, in the module of this name: functions
and classes have the name of the module, method descriptors and builtin class methods have a class
that has it, builtin functions have a module whose `__spec__`, or else itself, has it. -/
inductive DefinedAs (parts : Path) (scopes : List Enclosing) (name : String) : Named → Prop where
  | function :
      DefinedAs parts scopes name (.function (.text (dottedText parts)) (qualname scopes name))
  | cls : DefinedAs parts scopes name (.cls (.text (dottedText parts)) (qualname scopes name))
  | descriptor :
      DefinedAs parts scopes name (.descriptor (.text (dottedText parts)) (qualname scopes name))
  | classBuiltin :
      DefinedAs parts scopes name (.builtin (.type (.text (dottedText parts))) (qualname scopes name))
  | builtin {moduleName : String} : DefinedAs parts scopes name
      (.builtin (.module moduleName (some (dottedText parts))) (qualname scopes name))
  | builtinWithoutSpec : DefinedAs parts scopes name
      (.builtin (.module (dottedText parts) none) (qualname scopes name))

/-- The module of the object, as far as it is asked for, is given by a text; a function may have
none. -/
def HasModule : Named → Prop
  | .builtin (.type m) _ => ∃ value, m = .text value
  | .function m _ => m = .none ∨ ∃ value, m = .text value
  | .descriptor m _ => ∃ value, m = .text value
  | .cls m _ => ∃ value, m = .text value
  | _ => True

/-- The object has been defined in one of the modules, possibly inside of classes, and can still be
found there. -/
structure AtHome (W : World) (modules : List Path) (m : Path) (classes : List String) (name : String)
    (v : Value) : Prop where
  module : m ∈ modules
  found : ∃ ns via, W.importModule m = some ns ∧ Leads W ns (classes ++ [name]) v via ∧ via.Nodup
  parts : ModuleParts m
  names : NamesIn (classes.map .cls) name
  defined : DefinedAs m (classes.map .cls) name (W.named v)

end Paradigm.Spec
