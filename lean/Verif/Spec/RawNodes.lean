import Verif.Spec.Literals

/-!
# Reading texts of syntax trees (specification)

The objects syntax trees consist of, and Python's evaluation of texts made of calls of the classes of
`ast`, lists and literals. Independent of the printer. Simplified: floating point and complex numbers
other than infinity are left out; identifiers are ASCII; the operand of a `bytes` literal is a text whose
characters stand for the bytes.
-/

namespace Paradigm

/-- A syntax tree or part of one: a node has one value for each of the fields of its class; `missing` is
the value of a field that is not set. -/
inductive Tree where
  | node (cls : Text) (values : List Tree)
  | list (items : List Tree)
  | str (value : Text)
  | bytes (value : Text)
  | int (value : Int)
  | true_
  | false_
  | none_
  | ellipsis
  | infinity
  | missing
  deriving Repr, Inhabited

/-- The classes of `ast`: the names of the fields, in order; a field is optional if the class itself has
the value `None` for it. -/
abbrev AstClasses := List (Text × List (Text × Bool))

namespace Spec

/-- Characters of identifiers. -/
def isWordChar (c : Char) : Bool := c.isAlphanum || c == '_'

/-- `name=` at the beginning of the text: the name and what follows. -/
def readKeyword (t : Text) : Option (Text × Text) :=
  match t.dropWhile isWordChar with
  | '=' :: rest => if (t.takeWhile isWordChar).isEmpty then none else some (t.takeWhile isWordChar, rest)
  | _ => none

/-- Words with a value of their own; `Ellipsis` is a name of `builtins`. -/
def wordValue (w : Text) : Option Tree :=
  if w = "True".toList then some .true_
  else if w = "False".toList then some .false_
  else if w = "None".toList then some .none_
  else if w = "Ellipsis".toList then some .ellipsis
  else none

/-- The values of the fields of a new node: those given by position, then those given by name; optional
fields that are not given are `None`. -/
def fieldValues (keywords : List (Text × Tree)) : List (Text × Bool) → List Tree → List Tree
  | [], _ => []
  | _ :: fields, v :: vs => v :: fieldValues keywords fields vs
  | (name, optional) :: fields, [] =>
    (match keywords.lookup name with
      | some v => v
      | none => if optional then .none_ else .missing) :: fieldValues keywords fields []

/-- The call of a class: too many arguments, arguments given twice and unknown ones are errors (for the
last Python 3.11 sets an attribute that is no field). -/
def construct (cls : Text) (fields : List (Text × Bool)) (positional : List Tree)
    (keywords : List (Text × Tree)) : Option Tree :=
  if positional.length ≤ fields.length ∧ (keywords.map Prod.fst).Nodup ∧
      ∀ k ∈ keywords.map Prod.fst, k ∈ (fields.drop positional.length).map Prod.fst then
    some (.node cls (fieldValues keywords fields positional))
  else none

/-- A number; CPython refuses those of more than 4300 digits. -/
def readShortNat (t : Text) : Option (Nat × Text) :=
  if (t.takeWhile Char.isDigit).length ≤ mostDigits then readNat t else none

mutual

/-- An expression at the beginning of the text, and the rest. `namespace` are the names in the
namespace; the second number is how many more brackets may be opened (CPython refuses to nest more than
200), the first one bounds the nesting of calls. -/
def readTree (ns : AstClasses) : Nat → Nat → Text → Option (Tree × Text)
  | 0, _, _ => none
  | _ + 1, _, [] => none
  | n + 1, level, c :: t =>
    if c = '\'' ∨ c = '"' then
      match readString (n + 1) c t with
      | none => none
      | some (s, t) => some (.str s, t)
    else if c = '-' then
      match readShortNat t with
      | none => none
      | some (k, t) => some (.int (-(k : Int)), t)
    else if c.isDigit then
      match readShortNat (c :: t) with
      | none => none
      | some (k, t) => some (.int k, t)
    else if c = '[' then
      if level = 0 then none
      else
        match readTrees ns n (level - 1) t with
        | none => none
        | some (xs, t) => some (.list xs, t)
    else
      match (c :: t).dropWhile isWordChar with
      | '(' :: rest =>
        if level = 0 then none
        else
          match ns.lookup ((c :: t).takeWhile isWordChar) with
          | none => none
          | some fields =>
            match readArguments ns n (level - 1) rest with
            | none => none
            | some (positional, keywords, rest) =>
              match construct ((c :: t).takeWhile isWordChar) fields positional keywords with
              | none => none
              | some x => some (x, rest)
      | rest =>
        if c = 'b' ∧ (t.head? = some '\'' ∨ t.head? = some '"') then
          match readString (n + 1) (t.head?.getD ' ') (t.drop 1) with
          | none => none
          | some (s, t) => if s.all (fun x => x.toNat < 256) then some (.bytes s, t) else none
        else if (ns.lookup ((c :: t).takeWhile isWordChar)).isSome then none
        else
          match wordValue ((c :: t).takeWhile isWordChar) with
          | none => none
          | some x => some (x, rest)

/-- Expressions up to the closing `]`. -/
def readTrees (ns : AstClasses) : Nat → Nat → Text → Option (List Tree × Text)
  | 0, _, _ => none
  | n + 1, level, t =>
    match skipBlank t with
    | [] => none
    | c :: t =>
      if c = ']' then some ([], t)
      else
        match readTree ns n level (c :: t) with
        | none => none
        | some (x, t) =>
          match skipBlank t with
          | [] => none
          | c :: t =>
            if c = ']' then some ([x], t)
            else if c = ',' then
              match readTrees ns n level t with
              | none => none
              | some (xs, t) => some (x :: xs, t)
            else none

/-- Arguments up to the closing `)`: those given by position come first. -/
def readArguments (ns : AstClasses) : Nat → Nat → Text → Option (List Tree × List (Text × Tree) × Text)
  | 0, _, _ => none
  | n + 1, level, t =>
    match skipBlank t with
    | [] => none
    | c :: t =>
      if c = ')' then some ([], [], t)
      else
        match readTree ns n level (((readKeyword (c :: t)).map Prod.snd).getD (c :: t)) with
        | none => none
        | some (x, rest) =>
          match skipBlank rest with
          | [] => none
          | d :: rest =>
            if d = ')' then
              match readKeyword (c :: t) with
              | none => some ([x], [], rest)
              | some (name, _) => some ([], [(name, x)], rest)
            else if d = ',' then
              match readArguments ns n level rest with
              | none => none
              | some (positional, keywords, rest) =>
                match readKeyword (c :: t) with
                | none => some (x :: positional, keywords, rest)
                | some (name, _) =>
                  if positional.isEmpty then some ([], (name, x) :: keywords, rest) else none
            else none

end

/-- The value of a text that is one expression, in a namespace with these classes. -/
def evalText (ns : AstClasses) (t : Text) : Option Tree :=
  match readTree ns (2 * t.length + 2) 200 t with
  | some (x, []) => some x
  | _ => none

mutual

/-- How deeply the brackets of a text of the tree are nested. -/
def nesting : Tree → Nat
  | .node _ values => nestings values + 1
  | .list items => nestings items + 1
  | _ => 0

def nestings : List Tree → Nat
  | [] => 0
  | x :: xs => max (nesting x) (nestings xs)

end

/-- A name of Python (in ASCII) that is not one of the constants. -/
def IsWord (w : Text) : Prop :=
  (∃ c w', w = c :: w' ∧ (c.isAlpha = true ∨ c = '_')) ∧ w.all isWordChar = true ∧
    w ≠ "True".toList ∧ w ≠ "False".toList ∧ w ≠ "None".toList

mutual

/-- The tree is made of nodes of the given classes, where fields that the class has a value for are
set. -/
def OfClasses (ns : AstClasses) : Tree → Prop
  | .node cls values => ∃ fields, ns.lookup cls = some fields ∧ OfFields ns fields values
  | .list items => AllOfClasses ns items
  | .bytes s => s.all (fun x => x.toNat < 256) = true
  | .missing => False
  | _ => True

def AllOfClasses (ns : AstClasses) : List Tree → Prop
  | [] => True
  | x :: xs => OfClasses ns x ∧ AllOfClasses ns xs

def OfFields (ns : AstClasses) : List (Text × Bool) → List Tree → Prop
  | [], [] => True
  | (_, optional) :: fields, v :: vs =>
    (OfClasses ns v ∨ (v = .missing ∧ optional = false)) ∧ OfFields ns fields vs
  | _, _ => False

end

mutual

/-- No infinite number occurs, and no integer of more than 4300 digits. -/
def Finite : Tree → Prop
  | .node _ values => AllFinite values
  | .list items => AllFinite items
  | .infinity => False
  | .int i => i.natAbs < 10 ^ mostDigits
  | _ => True

def AllFinite : List Tree → Prop
  | [] => True
  | x :: xs => Finite x ∧ AllFinite xs

end

/-- The classes that trees of programs are made of: `ast.Ellipsis` is deprecated since Python 3.8, where `...`
is a constant. -/
def inUse (classes : AstClasses) : AstClasses :=
  classes.filter fun entry => entry.1 ≠ "Ellipsis".toList

/-- Classes and fields have names of Python, and different fields of a class have different names. -/
def NamedProperly (ns : AstClasses) : Prop :=
  ∀ entry ∈ ns, IsWord entry.1 ∧ (∀ field ∈ entry.2, IsWord field.1) ∧ (entry.2.map Prod.fst).Nodup

end Spec

end Paradigm
