import Verif.Model.Stubs

/-!
# What import statements, type arguments and trees mean

Independent of the parser.
-/

namespace Paradigm.Spec

/-- `name` is the dotted text of the non-empty path `parts`, none of whose parts has a dot. -/
def Names (name : String) (parts : Path) : Prop :=
  parts ≠ [] ∧ (∀ part ∈ parts, '.' ∉ part.toList) ∧
    name.toList = ['.'].intercalate (parts.map String.toList)

/-- What `import name` / `import name as asname` makes the dotted name `path` refer to, when `name`
is the text of `parts`: every beginning of the module path is a module. -/
def importBinds (parts : Path) (asname : Option String) (path : Path) : Option QPath :=
  match asname with
  | some n => if path = [n] then some (parts, []) else none
  | none => if path ≠ [] ∧ path <+: parts then some (path, []) else none

/-- What `from m import name` / `from m import name as asname` makes `path` refer to. -/
def fromBinds (m : Path) (name : String) (asname : Option String) (path : Path) : Option QPath :=
  if path = [asname.getD name] then some (m, [name]) else none

/-- The bindings of several aliases: the last one that binds the path counts. -/
def lastBinding {α : Type} (binds : α → Option QPath) : List α → Option QPath
  | [] => none
  | a :: as => (lastBinding binds as).or (binds a)

/-- The reference recorded for a dotted name of a module. -/
def referenceAt (s : ParseState) (m path : Path) : Option QPath :=
  ((s.references.lookup m).getD []).lookup path

/-- `importlib._bootstrap._resolve_name` on the package a module belongs to: a package is its own,
any other module belongs to the enclosing one (`__package__`); `none` is an `ImportError`. -/
def resolveName (isPackage : Bool) (m : Path) (level : Nat) (name : Path) : Option Path :=
  let package := if isPackage then m else m.dropLast
  if package.length < level then none
  else some (package.take (package.length - (level - 1)) ++ name)

/-- The arguments between the brackets. -/
def bracketed : Expr → List Expr
  | .tuple elts _ => elts
  | e => [e]

mutual

/-- The innermost arguments of a type argument, from left to right. -/
def argLeaves : Expr → List Expr
  | .subscript _ (.tuple elts _) _ => argLeavesAll elts
  | .subscript _ slice _ => argLeaves slice
  | .name id load => [.name id load]
  | .attribute value attr load => [.attribute value attr load]
  | .tuple elts load => [.tuple elts load]
  | .list elts => [.list elts]
  | .call func args keywords => [.call func args keywords]
  | .constant text => [.constant text]
  | .binOp left op right => [.binOp left op right]
  | .other tag children => [.other tag children]

def argLeavesAll : List Expr → List Expr
  | [] => []
  | e :: es => argLeaves e ++ argLeavesAll es

end

/-- The nodes at each depth, shallower first, up to a depth. -/
def levels {α : Type} (children : α → List α) : Nat → List α → List α
  | 0, _ => []
  | d + 1, level => level ++ levels children d (level.flatMap children)

mutual

/-- The expression and everything below it, from left to right. -/
def subtrees : Expr → List Expr
  | .name id load => [.name id load]
  | .attribute value attr load => .attribute value attr load :: subtrees value
  | .subscript value slice load =>
    .subscript value slice load :: (subtrees value ++ subtrees slice)
  | .tuple elts load => .tuple elts load :: subtreesAll elts
  | .list elts => .list elts :: subtreesAll elts
  | .call func args keywords =>
    .call func args keywords :: (subtrees func ++ (subtreesAll args ++ subtreesKw keywords))
  | .constant value => [.constant value]
  | .binOp left op right => .binOp left op right :: (subtrees left ++ subtrees right)
  | .other tag children => .other tag children :: subtreesAll children

def subtreesAll : List Expr → List Expr
  | [] => []
  | e :: es => subtrees e ++ subtreesAll es

def subtreesKw : List (Option String × Expr) → List Expr
  | [] => []
  | (_, e) :: es => subtrees e ++ subtreesKw es

end

end Paradigm.Spec
