import Verif.Model.Text

/-!
# Model of `pretty.py`: the text written for cached values
-/

namespace Paradigm

/-- Values that are cached: numbers, texts and collections of them. Sets and dictionaries are listed in
the order of iteration. -/
inductive Data where
  | int (value : Int)
  | str (value : Text)
  | tuple (elements : List Data)
  | list (elements : List Data)
  | set (elements : List Data)
  | dict (entries : List (Data × Data))
  deriving Repr

/-- The last `digits` hexadecimal digits. -/
def hexDigits : Nat → Nat → Text
  | 0, _ => []
  | digits + 1, n => hexDigits digits (n / 16) ++ [Nat.digitChar (n % 16)]

/-- A character within `repr` of a text (`unicode_repr` of CPython 3.11); `printable` is
`str.isprintable` for characters beyond ASCII. -/
def charRepr (printable : Char → Bool) (quote c : Char) : Text :=
  if c = quote ∨ c = '\\' then ['\\', c]
  else if c = '\t' then ['\\', 't']
  else if c = '\n' then ['\\', 'n']
  else if c = '\r' then ['\\', 'r']
  else if c.toNat < 0x20 ∨ c.toNat = 0x7f then '\\' :: 'x' :: hexDigits 2 c.toNat
  else if c.toNat < 0x7f then [c]
  else if printable c then [c]
  else if c.toNat ≤ 0xff then '\\' :: 'x' :: hexDigits 2 c.toNat
  else if c.toNat ≤ 0xffff then '\\' :: 'u' :: hexDigits 4 c.toNat
  else '\\' :: 'U' :: hexDigits 8 c.toNat

/-- The quotes used by `repr` of a text. -/
def quoteFor (s : Text) : Char := if s.contains '\'' && !s.contains '"' then '"' else '\''

/-- `repr` of a text. Simplified: no lone surrogates. -/
def strRepr (printable : Char → Bool) (s : Text) : Text :=
  quoteFor s :: (s.flatMap (charRepr printable (quoteFor s)) ++ [quoteFor s])

/-- `repr` of a number. -/
def intRepr : Int → Text
  | .ofNat n => Nat.toDigits 10 n
  | .negSucc n => '-' :: Nat.toDigits 10 (n + 1)

/-- `sorted` of texts. -/
def sortTexts (texts : List Text) : List Text := texts.mergeSort fun a b => decide (a ≤ b)

/-- `indent * ' ' * depth`. -/
def padding (indent depth : Nat) : Text := List.replicate (indent * depth) ' '

mutual

/-- `repr_from`, `/repo/paradigm/_core/pretty.py:11-67`. -/
def reprFrom (printable : Char → Bool) (indent depth : Nat) : Data → Text
  | .int i => intRepr i
  | .str s => strRepr printable s
  | .dict [] => ['{', '}']
  | .dict (e :: es) =>
    '{' :: '\n' ::
      (join [',', '\n'] (sortTexts (entriesReprs printable indent (depth + 1) (e :: es)))
        ++ '\n' :: (padding indent depth ++ ['}']))
  | .list [] => ['[', ']']
  | .list (x :: xs) =>
    '[' :: '\n' ::
      (join [',', '\n'] (elementsReprs printable indent (depth + 1) (x :: xs))
        ++ '\n' :: (padding indent depth ++ [']']))
  | .tuple [] => ['(', ')']
  | .tuple [x] => '(' :: (reprFrom printable indent depth x ++ [',', ')'])
  | .tuple (x :: y :: xs) =>
    '(' :: '\n' ::
      (join [',', '\n'] (elementsReprs printable indent (depth + 1) (x :: y :: xs))
        ++ '\n' :: (padding indent depth ++ [')']))
  | .set [] => ['s', 'e', 't', '(', ')']
  | .set (x :: xs) =>
    '{' :: '\n' ::
      (join [',', '\n'] (elementsReprs printable indent (depth + 1) (x :: xs))
        ++ '\n' :: (padding indent depth ++ ['}']))

/-- The lines of elements, `/repo/paradigm/_core/pretty.py:37-39,49-51,62-64`. -/
def elementsReprs (printable : Char → Bool) (indent depth : Nat) : List Data → List Text
  | [] => []
  | x :: xs =>
    (padding indent depth ++ reprFrom printable indent depth x)
      :: elementsReprs printable indent depth xs

/-- The lines of entries, `/repo/paradigm/_core/pretty.py:20-27`. -/
def entriesReprs (printable : Char → Bool) (indent depth : Nat) : List (Data × Data) → List Text
  | [] => []
  | (k, v) :: es =>
    (padding indent depth ++ (reprFrom printable indent depth k
      ++ ':' :: ' ' :: reprFrom printable indent depth v))
      :: entriesReprs printable indent depth es

end

end Paradigm
