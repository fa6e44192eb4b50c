import Verif.Spec.Literals

/-!
# Model of `caching.py` and of the start-up of `stubs.py` and `modules.py`
-/

namespace Paradigm

/-- Names with values, in order. -/
abbrev Fields := List (Text × Data)

/-- The text written by `save` for the given fields, `/repo/paradigm/_core/caching.py:27-32`. -/
def saveText (printable : Char → Bool) : Fields → Text
  | [] => []
  | (name, value) :: fields =>
    name ++ ' ' :: '=' :: ' ' :: (reprFrom printable 4 0 value ++ '\n' :: saveText printable fields)

/-- Characters of names. Simplified: ASCII. -/
def isNameChar (c : Char) : Bool := c.isAlphanum || c == '_'

/-- The variables after the file was executed by `import_module`; `none` when that raises. Files
consist of assignments of literals; a name without assignment is an expression, `harmless` tells
those which do not raise. Simplified: nothing else is run successfully, see
`/verif/DESIGN.md`. -/
def runModule (harmless : Text → Bool) : Nat → Text → Option Fields
  | _, [] => some []
  | 0, _ :: _ => none
  | n + 1, c :: t =>
    if isNameChar c then
      match (c :: t).dropWhile isNameChar with
      | [] => if harmless ((c :: t).takeWhile isNameChar) then some [] else none
      | [' '] => if harmless ((c :: t).takeWhile isNameChar) then some [] else none
      | ' ' :: '=' :: ' ' :: u =>
        match Spec.readValue u.length u with
        | none => none
        | some (v, []) => some [((c :: t).takeWhile isNameChar, v)]
        | some (v, x :: r) =>
          if x = '\n' then
            match runModule harmless n r with
            | none => none
            | some fields => some (((c :: t).takeWhile isNameChar, v) :: fields)
          else none
      | _ => none
    else none

/-- The value of a variable: the last one assigned. -/
def variableOf (name : Text) : Fields → Option Data
  | [] => none
  | (name', value) :: fields =>
    match variableOf name fields with
    | some v => some v
    | none => if name' = name then some value else none

/-- `attrgetter(*names)`; `none` for `AttributeError`. -/
def attributes (fields : Fields) : List Text → Option (List Data)
  | [] => some []
  | name :: names =>
    match variableOf name fields with
    | none => none
    | some v =>
      match attributes fields names with
      | none => none
      | some vs => some (v :: vs)

/-- `load`, `/repo/paradigm/_core/caching.py:16-22`; `none` for any exception. The file may be missing;
it is not compiled when it exceeds the limits of the tokenizer. Simplified: the compiled file belongs
to the text. -/
def load (harmless : Text → Bool) (names : List Text) : Option Text → Option (List Data)
  | none => none
  | some t =>
    if Spec.withinLimits t then
      match runModule harmless t.length t with
      | none => none
      | some fields => attributes fields names
    else none

/-- `_VERSION_FIELD_NAME`, `/repo/paradigm/_core/stubs.py:29`, `/repo/paradigm/_core/modules.py:20`. -/
def versionName : Text := ['v', 'e', 'r', 's', 'i', 'o', 'n']

/-- How writing ends: the file could not be opened, or so many characters were written (all of them
when there are not as many). -/
inductive SaveEnd where
  | unopened
  | written (length : Nat)

/-- `save`, `/repo/paradigm/_core/caching.py:25-38`: the file afterwards. Exceptions become warnings;
a crash leaves the same file. -/
def save (printable : Char → Bool) (fields : Fields) (file : Option Text) : SaveEnd → Option Text
  | .unopened => file
  | .written length => some ((saveText printable fields).take length)

/-- What a version of the library computes: the tables with their names. -/
abbrev Compute := Text → Fields

/-- `_cached_version != _version` is false. -/
def isVersion (version : Text) : Data → Bool
  | .str s => s == version
  | _ => false

/-- The cached tables when they can be used, `/repo/paradigm/_core/stubs.py:41-56`,
`/repo/paradigm/_core/modules.py:23-31`. -/
def cachedTables (harmless : Text → Bool) (names : List Text) (version : Text) (file : Option Text) :
    Option (List Data) :=
  match load harmless (names ++ [versionName]) file with
  | none => none
  | some values =>
    match values.getLast? with
    | none => none
    | some v => if isVersion version v then some values.dropLast else none

/-- The tables after start-up and the cache file, `/repo/paradigm/_core/stubs.py:41-62,975-993`,
`/repo/paradigm/_core/modules.py:23-32,84-99`. Simplified: what is computed depends on the version
only (for one file name, see `cacheName`); `_NodeKind` is applied to numbers that it accepts. -/
def startUp (printable : Char → Bool) (harmless : Text → Bool) (compute : Compute) (main : Bool)
    (version : Text) (stop : SaveEnd) (file : Option Text) : List Data × Option Text :=
  match cachedTables harmless ((compute version).map Prod.fst) version file with
  | some tables => (tables, file)
  | none =>
    if main then
      ((compute version).map Prod.snd,
        save printable (compute version ++ [(versionName, .str version)]) file stop)
    else ((compute version).map fun _ => .dict [], file)

/-- A start of the library: whether in the main process, the version, how saving ends. -/
structure Start where
  main : Bool
  version : Text
  stop : SaveEnd

/-- The cache file after the given starts. -/
def fileAfter (printable : Char → Bool) (harmless : Text → Bool) (compute : Compute) :
    List Start → Option Text → Option Text
  | [], file => file
  | s :: starts, file =>
    fileAfter printable harmless compute starts
      (startUp printable harmless compute s.main s.version s.stop file).2

/-- What the name of the cache file depends on. -/
structure Environment where
  mypyVersion : Text
  platform : Text
  implementation : Text
  major : Nat
  minor : Nat
  micro : Nat
  level : Text
  serial : Nat

/-- `version.replace('.', '_')`. -/
def replaceDots (t : Text) : Text := t.map fun c => if c = '.' then '_' else c

/-- `_CACHE_PATH.name`, `/repo/paradigm/_core/stubs.py:16-22`, `/repo/paradigm/_core/modules.py:12-18`;
`file` is `stubs.py` or `modules.py`. -/
def cacheName (file : Text) (e : Environment) : Text :=
  '_' :: 'm' :: 'y' :: 'p' :: 'y' :: '_' :: (replaceDots e.mypyVersion
    ++ '_' :: (e.platform
    ++ '_' :: (e.implementation
    ++ '_' :: (join ['_'] [Nat.toDigits 10 e.major, Nat.toDigits 10 e.minor, Nat.toDigits 10 e.micro,
        e.level, Nat.toDigits 10 e.serial]
    ++ '_' :: file))))

end Paradigm
