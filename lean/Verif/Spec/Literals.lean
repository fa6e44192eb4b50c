import Verif.Model.Pretty
import Verif.Spec.Tokenizer

/-!
# Reading Python literals (specification)

Evaluation of the part of Python's expressions that the cache files are made of. Independent of the
printer. The number bounds the nesting of calls. The limits of the tokenizer apply to whole texts.
-/

namespace Paradigm.Spec

/-- The value of a hexadecimal digit. -/
def hexValue (c : Char) : Option Nat :=
  if '0' ≤ c ∧ c ≤ '9' then some (c.toNat - '0'.toNat)
  else if 'a' ≤ c ∧ c ≤ 'f' then some (c.toNat - 'a'.toNat + 10)
  else if 'A' ≤ c ∧ c ≤ 'F' then some (c.toNat - 'A'.toNat + 10)
  else none

/-- Reads the given number of hexadecimal digits. -/
def readHex : Nat → Nat → Text → Option (Nat × Text)
  | 0, acc, t => some (acc, t)
  | _ + 1, _, [] => none
  | k + 1, acc, c :: t =>
    match hexValue c with
    | none => none
    | some d => readHex k (16 * acc + d) t

/-- The character given by so many hexadecimal digits. -/
def readCode (digits : Nat) (t : Text) : Option (Char × Text) :=
  match readHex digits 0 t with
  | none => none
  | some (n, t) => if n.isValidChar then some (Char.ofNat n, t) else none

/-- What follows a backslash. Other escape sequences of Python are not read. -/
def readEscape : Text → Option (Char × Text)
  | [] => none
  | c :: t =>
    if c = '\\' ∨ c = '\'' ∨ c = '"' then some (c, t)
    else if c = 't' then some ('\t', t)
    else if c = 'n' then some ('\n', t)
    else if c = 'r' then some ('\r', t)
    else if c = 'x' then readCode 2 t
    else if c = 'u' then readCode 4 t
    else if c = 'U' then readCode 8 t
    else none

/-- A string literal after its opening quote. -/
def readString : Nat → Char → Text → Option (Text × Text)
  | 0, _, _ => none
  | _ + 1, _, [] => none
  | n + 1, quote, c :: t =>
    if c = quote then some ([], t)
    else if c = '\n' then none
    else if c = '\\' then
      match readEscape t with
      | none => none
      | some (x, t) =>
        match readString n quote t with
        | none => none
        | some (s, t) => some (x :: s, t)
    else
      match readString n quote t with
      | none => none
      | some (s, t) => some (c :: s, t)

/-- A non-empty row of decimal digits. -/
def readNat (t : Text) : Option (Nat × Text) :=
  if (t.takeWhile Char.isDigit).isEmpty then none
  else some (Nat.ofDigitChars 10 (t.takeWhile Char.isDigit) 0, t.dropWhile Char.isDigit)

/-- Within brackets, blanks and line ends mean nothing. -/
def skipBlank (t : Text) : Text := t.dropWhile fun c => c == ' ' || c == '\n'

mutual

/-- `==` of two hashable values; dictionaries, lists and sets are not hashable. -/
def sameKey : Data → Data → Bool
  | .int a, .int b => a == b
  | .str a, .str b => a == b
  | .tuple a, .tuple b => sameKeys a b
  | _, _ => false

def sameKeys : List Data → List Data → Bool
  | [], [] => true
  | a :: as, b :: bs => sameKey a b && sameKeys as bs
  | _, _ => false

end

mutual

def hashable : Data → Bool
  | .int _ => true
  | .str _ => true
  | .tuple xs => hashables xs
  | _ => false

def hashables : List Data → Bool
  | [] => true
  | x :: xs => hashable x && hashables xs

end

/-- `d[k] = v`: a key that is there keeps its place. -/
def putEntry (k v : Data) : List (Data × Data) → List (Data × Data)
  | [] => [(k, v)]
  | (k', v') :: es => if sameKey k' k then (k', v) :: es else (k', v') :: putEntry k v es

/-- The value of a dictionary display; unhashable keys raise. -/
def dictOf (es : List (Data × Data)) : Option Data :=
  if es.all (fun e => hashable e.1) then
    some (.dict (es.foldl (fun d e => putEntry e.1 e.2 d) []))
  else none

/-- Adding to a set. -/
def putElement (x : Data) : List Data → List Data
  | [] => [x]
  | y :: ys => if sameKey y x then y :: ys else y :: putElement x ys

/-- The value of a set display; unhashable elements raise. -/
def setOf (xs : List Data) : Option Data :=
  if xs.all hashable then some (.set (xs.foldl (fun s x => putElement x s) [])) else none

/-- The rest of `set()`. -/
def readEmptySet : Text → Option (Data × Text)
  | 'e' :: 't' :: '(' :: ')' :: t => some (.set [], t)
  | _ => none

mutual

/-- An expression at the beginning of the text, and the rest of the text. -/
def readValue : Nat → Text → Option (Data × Text)
  | 0, _ => none
  | _ + 1, [] => none
  | n + 1, c :: t =>
    if c = '\'' ∨ c = '"' then
      match readString n c t with
      | none => none
      | some (s, t) => some (.str s, t)
    else if c = '[' then
      match readItems n ']' t with
      | none => none
      | some (xs, _, t) => some (.list xs, t)
    else if c = '(' then
      match readItems n ')' t with
      | none => none
      | some ([x], false, t) => some (x, t)
      | some (xs, _, t) => some (.tuple xs, t)
    else if c = '{' then readBraces n t
    else if c = '-' then
      match readNat t with
      | none => none
      | some (k, t) => some (.int (-(k : Int)), t)
    else if c.isDigit then
      match readNat (c :: t) with
      | none => none
      | some (k, t) => some (.int k, t)
    else if c = 's' then readEmptySet t
    else none

/-- Expressions separated by commas up to the closing bracket; tells whether there was a comma. -/
def readItems : Nat → Char → Text → Option (List Data × Bool × Text)
  | 0, _, _ => none
  | n + 1, close, t =>
    match skipBlank t with
    | [] => none
    | c :: t =>
      if c = close then some ([], false, t)
      else
        match readValue n (c :: t) with
        | none => none
        | some (x, t) =>
          match skipBlank t with
          | [] => none
          | c :: t =>
            if c = close then some ([x], false, t)
            else if c = ',' then
              match readItems n close t with
              | none => none
              | some (xs, _, t) => some (x :: xs, true, t)
            else none

/-- Entries `key: value` separated by commas up to the closing brace. -/
def readEntries : Nat → Text → Option (List (Data × Data) × Text)
  | 0, _ => none
  | n + 1, t =>
    match skipBlank t with
    | [] => none
    | c :: t =>
      if c = '}' then some ([], t)
      else
        match readValue n (c :: t) with
        | none => none
        | some (k, t) =>
          match skipBlank t with
          | [] => none
          | c :: t =>
            if c = ':' then
              match readValue n (skipBlank t) with
              | none => none
              | some (v, t) =>
                match skipBlank t with
                | [] => none
                | c :: t =>
                  if c = '}' then some ([(k, v)], t)
                  else if c = ',' then
                    match readEntries n t with
                    | none => none
                    | some (es, t) => some ((k, v) :: es, t)
                  else none
            else none

/-- What follows an opening brace: a dictionary or a set. -/
def readBraces : Nat → Text → Option (Data × Text)
  | 0, _ => none
  | n + 1, t =>
    match skipBlank t with
    | [] => none
    | c :: t =>
      if c = '}' then some (.dict [], t)
      else
        match readValue n (c :: t) with
        | none => none
        | some (x, t') =>
          match skipBlank t' with
          | [] => none
          | c' :: t'' =>
            if c' = ':' then
              match readEntries n (c :: t) with
              | none => none
              | some (es, t) =>
                match dictOf es with
                | none => none
                | some d => some (d, t)
            else if c' = '}' then
              match setOf [x] with
              | none => none
              | some d => some (d, t'')
            else if c' = ',' then
              match readItems n '}' t'' with
              | none => none
              | some (xs, _, t) =>
                match setOf (x :: xs) with
                | none => none
                | some d => some (d, t)
            else none

end

/-- The value of a text that is one expression; `none` when it is not or when it raises. -/
def evaluate (t : Text) : Option Data :=
  if withinLimits t then
    match readValue t.length t with
    | some (v, []) => some v
    | _ => none
  else none

end Paradigm.Spec
