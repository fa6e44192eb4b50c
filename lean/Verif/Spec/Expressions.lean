import Verif.Spec.RawNodes
import Verif.Model.Syntax

/-!
# Reading Python expressions (specification)

The part of Python's expression grammar that annotations are written in: names, attributes, subscripts,
tuples, lists, `|`, `^`, `&`, signs, parentheses and literals. Independent of the printer. The number
bounds the nesting of calls. Simplified: identifiers are ASCII; numbers with fractions, texts with
prefixes and rows of texts are not read, as are calls and the other operators; there are no limits on the
nesting of brackets and on digits.
-/

namespace Paradigm.Spec

/-- The keywords of Python 3.11. -/
def pythonKeywords : List String :=
  ["False", "None", "True", "and", "as", "assert", "async", "await", "break", "class", "continue", "def",
   "del", "elif", "else", "except", "finally", "for", "from", "global", "if", "import", "in", "is",
   "lambda", "nonlocal", "not", "or", "pass", "raise", "return", "try", "while", "with", "yield"]

/-- The word is an identifier. -/
def isPythonName (w : String) : Bool :=
  match w.toList with
  | [] => false
  | c :: t => isWordChar c && !c.isDigit && t.all isWordChar && !pythonKeywords.contains w

/-- A word as an expression. -/
def wordExpr (w : String) : Option Expr :=
  if w = "None" then some (.constant .none)
  else if w = "True" then some (.constant (.bool true))
  else if w = "False" then some (.constant (.bool false))
  else if isPythonName w then some (.name w true)
  else none

/-- The binary operators by precedence, the weakest first. -/
def operatorSign : Nat → Char
  | 0 => '|'
  | 1 => '^'
  | _ => '&'

/-- The names of their classes. -/
def operatorClass : Nat → String
  | 0 => "BitOr"
  | 1 => "BitXor"
  | _ => "BitAnd"

/-- What brackets around one or several expressions mean: without a comma, that expression itself. -/
def grouped : List Expr × Bool → Expr
  | ([e], false) => e
  | (es, _) => .tuple es true

mutual

/-- An expression at the beginning of the text whose operators bind at least as strongly as those of the
level (3: signs only), and the rest of the text. -/
def readAt : Nat → Nat → Text → Option (Expr × Text)
  | 0, _, _ => none
  | n + 1, level, t =>
    if level < 3 then (readAt n (level + 1) t).bind fun x => readMore n level x.1 x.2
    else
      match skipBlank t with
      | [] => none
      | c :: t =>
        if c = '-' then (readAt n 3 t).bind fun x => some (.other "UnaryOp USub" [x.1], x.2)
        else if c = '+' then (readAt n 3 t).bind fun x => some (.other "UnaryOp UAdd" [x.1], x.2)
        else (readAtom n c t).bind fun x => readTrailers n x.1 x.2

/-- The operators of the level that follow an operand, from left to right. -/
def readMore : Nat → Nat → Expr → Text → Option (Expr × Text)
  | 0, _, _, _ => none
  | n + 1, level, left, t =>
    match skipBlank t with
    | [] => some (left, t)
    | c :: u =>
      if c = operatorSign level then
        (readAt n (level + 1) u).bind fun x => readMore n level (.binOp left (operatorClass level) x.1) x.2
      else some (left, t)

/-- An expression that is no operation, beginning with the given character. -/
def readAtom : Nat → Char → Text → Option (Expr × Text)
  | 0, _, _ => none
  | n + 1, c, t =>
    if c = '(' then (readElements n ')' t).bind fun x => some (grouped (x.1, x.2.1), x.2.2)
    else if c = '[' then (readElements n ']' t).bind fun x => some (.list x.1, x.2.2)
    else if c = '\'' ∨ c = '"' then
      (readString (t.length + 1) c t).bind fun x => some (.constant (.str (String.ofList x.1)), x.2)
    else if c = '.' then
      if t.take 2 = ['.', '.'] then some (.constant .ellipsis, t.drop 2) else none
    else if c.isDigit then
      (readNat (c :: t)).bind fun x =>
        match x.2 with
        | [] => some (.constant (.int x.1), [])
        | d :: u => if d = '.' ∨ isWordChar d then none else some (.constant (.int x.1), d :: u)
    else
      (wordExpr (String.ofList ((c :: t).takeWhile isWordChar))).bind fun e =>
        some (e, (c :: t).dropWhile isWordChar)

/-- The attributes and subscripts that follow an expression. -/
def readTrailers : Nat → Expr → Text → Option (Expr × Text)
  | 0, _, _ => none
  | n + 1, e, t =>
    match skipBlank t with
    | [] => some (e, t)
    | c :: u =>
      if c = '.' then
        if isPythonName (String.ofList (u.takeWhile isWordChar)) then
          readTrailers n (.attribute e (String.ofList (u.takeWhile isWordChar)) true) (u.dropWhile isWordChar)
        else none
      else if c = '[' then
        (readElements n ']' u).bind fun x =>
          if x.1.isEmpty then none
          else readTrailers n (.subscript e (grouped (x.1, x.2.1)) true) x.2.2
      else some (e, t)

/-- The expressions up to the closing bracket, and whether a comma follows the last of them. -/
def readElements : Nat → Char → Text → Option (List Expr × Bool × Text)
  | 0, _, _ => none
  | n + 1, close, t =>
    match skipBlank t with
    | [] => none
    | c :: u =>
      if c = close then some ([], false, u)
      else
        (readAt n 0 (c :: u)).bind fun x =>
          match skipBlank x.2 with
          | [] => none
          | d :: u =>
            if d = close then some ([x.1], false, u)
            else if d = ',' then
              (readElements n close u).bind fun y => some (x.1 :: y.1, y.2.1 || y.1.isEmpty, y.2.2)
            else none

end

/-- The text is an expression of Python, namely this one. -/
def Reads (t : String) (e : Expr) : Prop := ∃ n, readAt n 0 t.toList = some (e, [])

/-! ### Trees -/

/-- How strongly the outermost operator of an expression binds; 4 if it is no operation. -/
def bindingLevel : Expr → Nat
  | .binOp _ op _ => if op = "BitOr" then 0 else if op = "BitXor" then 1 else 2
  | .other _ _ => 3
  | _ => 4

mutual

/-- Expressions of Python as they occur in annotations: names are identifiers and are read, operators
are those of types, numbers in them are not negative (a sign is an operator). -/
def IsAnnotation : Expr → Prop
  | .name id load => isPythonName id = true ∧ load = true
  | .attribute value attr load => IsAnnotation value ∧ isPythonName attr = true ∧ load = true
  | .subscript value slice load => IsAnnotation value ∧ IsAnnotation slice ∧ load = true
  | .tuple elts load => AreAnnotations elts ∧ load = true
  | .list elts => AreAnnotations elts
  | .call .. => False
  | .constant (.int i) => 0 ≤ i
  | .constant a => a = .none ∨ a = .ellipsis ∨ a = .bool true ∨ a = .bool false ∨ ∃ s, a = .str s
  | .binOp left op right =>
    IsAnnotation left ∧ op ∈ ["BitOr", "BitXor", "BitAnd"] ∧ IsAnnotation right
  | .other tag [operand] => (tag = "UnaryOp USub" ∨ tag = "UnaryOp UAdd") ∧ IsAnnotation operand
  | .other _ _ => False

def AreAnnotations : List Expr → Prop
  | [] => True
  | e :: es => IsAnnotation e ∧ AreAnnotations es

end

mutual

/-- No expression in the tree needs parentheses, and no constant in it is a text or `...`; tuples and
operands of signs may have them. -/
def WithoutParentheses : Expr → Prop
  | .name .. => True
  | .attribute value _ _ =>
    WithoutParentheses value ∧ bindingLevel value = 4 ∧ (∀ i, value ≠ .constant (.int i))
  | .subscript value slice _ => WithoutParentheses value ∧ bindingLevel value = 4 ∧ WithoutParentheses slice
  | .tuple elts _ => AllWithoutParentheses elts
  | .list elts => AllWithoutParentheses elts
  | .call .. => True
  | .constant a => a ≠ .ellipsis ∧ ∀ s, a ≠ .str s
  | .binOp left op right =>
    WithoutParentheses left ∧ bindingLevel (.binOp left op right) ≤ bindingLevel left ∧
      WithoutParentheses right ∧ bindingLevel (.binOp left op right) < bindingLevel right
  | .other _ children => AllWithoutParentheses children

def AllWithoutParentheses : List Expr → Prop
  | [] => True
  | e :: es => WithoutParentheses e ∧ AllWithoutParentheses es

end

end Paradigm.Spec
