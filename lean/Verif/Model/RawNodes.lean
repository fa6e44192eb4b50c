import Verif.Spec.RawNodes

/-!
# Model of stored syntax trees

`/repo/paradigm/_core/arboreal/conversion.py:113-115` writes trees as texts, and
`/repo/paradigm/_core/arboreal/construction.py:8-21` reads them.
-/

namespace Paradigm

/-- `_AST_NAMESPACE`, `/repo/paradigm/_core/arboreal/construction.py:8-9`: what is in `ast` except for
`Ellipsis`. Simplified: the functions and other values in `ast` are left out. -/
def astNamespace (classes : AstClasses) : AstClasses :=
  classes.filter fun entry => entry.1 ≠ "Ellipsis".toList

/-- The tests in the loop over `_fields` in `_format` that make it go on with the next field: the field is
not set, or it is `None` and so is the attribute of the class. -/
def leftOut (optional : Bool) : Tree → Bool
  | .missing => true
  | .none_ => optional
  | _ => false

mutual

/-- `_format` of `ast.dump` in CPython 3.11 without indentation and names of fields (except where one is
left out). `classes` are all classes of `ast`. -/
def dumpTree (classes : AstClasses) (printable : Char → Bool) : Tree → Text
  | .node cls values =>
    cls ++ '(' :: (join [',', ' '] (dumpFields classes printable false
      ((classes.lookup cls).getD []) values) ++ [')'])
  | .list items => '[' :: (join [',', ' '] (dumpTrees classes printable items) ++ [']'])
  | .str s => strRepr printable s
  | .bytes s => 'b' :: strRepr (fun _ => false) s
  | .int i => intRepr i
  | .true_ => ['T', 'r', 'u', 'e']
  | .false_ => ['F', 'a', 'l', 's', 'e']
  | .none_ => ['N', 'o', 'n', 'e']
  | .ellipsis => ['E', 'l', 'l', 'i', 'p', 's', 'i', 's']
  | .infinity => ['i', 'n', 'f']
  | .missing => []

def dumpTrees (classes : AstClasses) (printable : Char → Bool) : List Tree → List Text
  | [] => []
  | x :: xs => dumpTree classes printable x :: dumpTrees classes printable xs

/-- The loop over `_fields` in `_format`: a field that is not set, or that is `None` as the class says, is
left out, and later ones are named. -/
def dumpFields (classes : AstClasses) (printable : Char → Bool) (keywords : Bool)
    (fields : List (Text × Bool)) : List Tree → List Text
  | [] => []
  | v :: vs =>
    match fields with
    | [] => []
    | field :: fields =>
      if leftOut field.2 v then dumpFields classes printable true fields vs
      else
        (if keywords then field.1 ++ '=' :: dumpTree classes printable v
          else dumpTree classes printable v) :: dumpFields classes printable keywords fields vs

end

/-- `conversion.to_raw`, `/repo/paradigm/_core/arboreal/conversion.py:113-115`. -/
def toRaw (classes : AstClasses) (printable : Char → Bool) (tree : Tree) : Text :=
  dumpTree classes printable tree

/-- `construction.from_raw`, `/repo/paradigm/_core/arboreal/construction.py:16-21`: `none` when `eval`
raises or the value is not a node. -/
def fromRaw (classes : AstClasses) (raw : Text) : Option Tree :=
  match Spec.evalText (astNamespace classes) raw with
  | some (.node cls values) => some (.node cls values)
  | _ => none

end Paradigm
