import Verif.Model.Text

/-!
# Reading a printed signature (specification)

A reader for `(a: X, /, b: Y = 1, *args: Z, c: W, **kwargs: V) -> R` by Python's lexical rules:
commas separate parameters at bracket depth 0 outside string literals. Independent of the printer.
-/

namespace Paradigm.Spec.Read

/-- Lexer state: bracket depth, quote character of the open string literal, after a backslash. -/
structure Scan where
  depth : Nat
  quote : Option Char
  escaped : Bool
  deriving DecidableEq

def start : Scan := ⟨0, none, false⟩

def isOpening (c : Char) : Bool := c == '(' || c == '[' || c == '{'
def isClosing (c : Char) : Bool := c == ')' || c == ']' || c == '}'
def isQuote (c : Char) : Bool := c == '\'' || c == '"'

def step (s : Scan) (c : Char) : Scan :=
  match s.quote with
  | some q =>
    if s.escaped then { s with escaped := false }
    else if c == '\\' then { s with escaped := true }
    else if c == q then { s with quote := none }
    else s
  | none =>
    if isQuote c then { s with quote := some c }
    else if isOpening c then { s with depth := s.depth + 1 }
    else if isClosing c then { s with depth := s.depth - 1 }
    else s

/-- Outside of brackets and string literals. -/
def top (s : Scan) : Bool := s.depth == 0 && s.quote.isNone

/-- Scans a text; fails at a separator or at an unmatched closing bracket on top level. -/
def scan (s : Scan) : Text → Option Scan
  | [] => some s
  | c :: cs => if top s && (c == ',' || isClosing c) then none else scan (step s c) cs

/-- A self-contained expression text: brackets and quotes are matched and there is no comma outside
of them. -/
def Closed (t : Text) : Prop := scan start t = some start

/-- Comma separated parts up to the closing parenthesis. `cur` is the part being read. -/
def parts (s : Scan) (cur : Text) : Text → Option (List Text)
  | [] => none
  | c :: cs =>
    if top s && c == ')' then some [cur]
    else if top s && c == ',' then
      match parts s [] cs with
      | none => none
      | some ps => some (cur :: ps)
    else parts (step s c) (cur ++ [c]) cs

/-- What a part says. -/
inductive TextEntry where
  | slash
  | star
  | varPositional (name : Text)
  | varKeyword (name : Text)
  | plain (name : Text)

def nameOf (t : Text) : Text := t.takeWhile (fun c => c != ':')

def entry (part : Text) : TextEntry :=
  match part.dropWhile (fun c => c == ' ') with
  | ['/'] => .slash
  | ['*'] => .star
  | '*' :: '*' :: t => .varKeyword (nameOf t)
  | '*' :: t => .varPositional (nameOf t)
  | t => .plain (nameOf t)

/-- Kinds of the entries: `k` is the kind of a plain name at this point; after `*` or `*args` it
is keyword-only. -/
def kindsFrom (k : Kind) : List TextEntry → List (Text × Kind)
  | [] => []
  | .slash :: es => kindsFrom k es
  | .star :: es => kindsFrom .keywordOnly es
  | .varPositional n :: es => (n, .variadicPositional) :: kindsFrom .keywordOnly es
  | .varKeyword n :: es => (n, .variadicKeyword) :: kindsFrom k es
  | .plain n :: es => (n, k) :: kindsFrom k es

def TextEntry.isSlash : TextEntry → Bool
  | .slash => true
  | _ => false

/-- Names before `/` are positional-only. -/
def kinds (es : List TextEntry) : List (Text × Kind) :=
  if es.any TextEntry.isSlash then
    kindsFrom .positionalOnly (es.takeWhile (fun e => !e.isSlash))
      ++ kindsFrom .positionalOrKeyword (es.dropWhile (fun e => !e.isSlash))
  else kindsFrom .positionalOrKeyword es

/-- Names and kinds announced by a printed signature. -/
def signature : Text → Option (List (Text × Kind))
  | '(' :: t =>
    match parts start [] t with
    | none => none
    | some [[]] => some []
    | some ps => some (kinds (ps.map entry))
  | _ => none

/-- Identifier-like names: not empty, no blanks, separators, brackets, quotes or stars. -/
def IsName (n : String) : Prop :=
  n.toList ≠ [] ∧ ∀ c ∈ n.toList, c ∉ " ,:*/()[]{}'\"\\".toList

/-- The runtime's own texts are closed. -/
structure ReprsOk (rt : Reprs) : Prop where
  atom : ∀ a, Closed (rt.atom a)
  cls : ∀ i, Closed (rt.cls i)
  form : ∀ i, Closed (rt.form i)
  other : ∀ o, Closed (rt.other o)

/-- The parts of a parameter are closed texts. -/
def PrintsClosed (rt : Reprs) (p : Param) : Prop :=
  Closed (toRepr rt p.annotation) ∧ ∀ d, p.default? = some d → Closed (toRepr rt d)

end Paradigm.Spec.Read

namespace Paradigm.Spec

/-- The texts occur in the given order, without overlap. -/
def EmbedsInOrder : List Text → Text → Prop
  | [], _ => True
  | p :: ps, t => ∃ pre post, t = pre ++ p ++ post ∧ EmbedsInOrder ps post

end Paradigm.Spec
