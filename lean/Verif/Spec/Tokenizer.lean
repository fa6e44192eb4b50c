import Verif.Model.Text

/-!
# Limits of CPython's tokenizer (specification)

CPython 3.11 rejects sources with more than 200 open brackets ("too many nested parentheses") and decimal
numbers of more than 4300 digits, and sources with null characters. A source is read from left to right,
brackets and digits within string literals do not count. Simplified: string literals are those written by `repr` (no triple quotes,
no prefixes), there are no comments, hexadecimal numbers and underscores within numbers.
-/

namespace Paradigm.Spec

/-- Most open brackets (`MAXLEVEL` of CPython's tokenizer). -/
def mostBrackets : Nat := 200

/-- Most digits of a decimal number (`sys.int_info.default_max_str_digits`). -/
def mostDigits : Nat := 4300

/-- What is known between two characters. -/
structure TokenState where
  /-- open brackets -/
  brackets : Nat
  /-- the quotes of the string literal that is open -/
  quote : Option Char
  /-- the character before was a backslash within a string literal -/
  escaped : Bool
  /-- digits of the number that is open -/
  digits : Nat
  /-- a name is open -/
  name : Bool
  deriving Repr, DecidableEq

/-- The state after one more character. -/
def TokenState.step (s : TokenState) (c : Char) : Option TokenState :=
  if c = '\x00' then none else
  match s.quote with
  | some q =>
    if s.escaped then some { s with escaped := false }
    else if c = '\\' then some { s with escaped := true }
    else if c = q then some { s with quote := none }
    else some s
  | none =>
    if c = '\'' ∨ c = '"' then some { s with quote := some c, digits := 0, name := false }
    else if c = '(' ∨ c = '[' ∨ c = '{' then
      if s.brackets < mostBrackets then
        some { s with brackets := s.brackets + 1, digits := 0, name := false }
      else none
    else if c = ')' ∨ c = ']' ∨ c = '}' then
      some { s with brackets := s.brackets - 1, digits := 0, name := false }
    else if c.isDigit && !s.name then
      if s.digits < mostDigits then some { s with digits := s.digits + 1 } else none
    else some { s with digits := 0, name := c.isAlpha || c == '_' || (s.name && c.isDigit) }

/-- The state after a text, `none` when it is rejected. -/
def tokenize (s : TokenState) : Text → Option TokenState
  | [] => some s
  | c :: t =>
    match s.step c with
    | none => none
    | some s' => tokenize s' t

/-- No limit is exceeded. -/
def withinLimits (t : Text) : Bool := (tokenize ⟨0, none, false, 0, false⟩ t).isSome

end Paradigm.Spec
