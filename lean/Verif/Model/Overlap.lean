import Verif.Model.Caching

/-!
# Model of several processes that start at overlapping times

The cache file and the files compiled from it are shared. Files are read and written piece by piece
(`caching.py` writes through a buffer, `importlib` reads until the end of the file), opening for
writing empties the file, and every process goes on writing where it was, whatever the others have
done to the file; positions beyond its end are filled with null characters. A process that stops just makes no
further steps.

Simplified: one position for each character; any text that was compiled earlier may be taken for
the file when it is imported (`importlib` compares times and sizes); compiled files are written at once
(`importlib` renames a complete file).
-/

namespace Paradigm

/-- A process that starts the library. -/
structure Process where
  version : Text
  main : Bool

/-- How far a process is. -/
inductive StartPhase where
  /-- has not begun -/
  | fresh
  /-- imports the cache and has read so much of the file, `/repo/paradigm/_core/caching.py:16-22` -/
  | reading (seen : Text)
  /-- uses tables and does not save any -/
  | settled (tables : List Data)
  /-- uses the tables it computed, has not yet opened the file, `/repo/paradigm/_core/stubs.py:975-980` -/
  | computed
  /-- has opened the file and has written so many characters, `/repo/paradigm/_core/caching.py:27-32` -/
  | writing (count : Nat)
  /-- has closed the file, compiles it and has read so much of it, `/repo/paradigm/_core/caching.py:33-34` -/
  | compiling (seen : Text)
  /-- has nothing left to do -/
  | finished

/-- The files and the processes. -/
structure Shared where
  file : Option Text
  compiled : List Text
  phases : Nat → StartPhase

/-- The processes with one of them changed. -/
def Shared.put (s : Shared) (i : Nat) (p : StartPhase) : Shared :=
  { s with phases := fun j => if j = i then p else s.phases j }

/-- A file after a piece was written at a position. -/
def writeAt (position : Nat) (piece file : Text) : Text :=
  if piece = [] then file
  else file.take position ++ (List.replicate (position - file.length) '\x00'
    ++ (piece ++ file.drop (position + piece.length)))

/-- The file that a process saves, `/repo/paradigm/_core/stubs.py:981-988`,
`/repo/paradigm/_core/modules.py:90-97`. -/
def savedText (printable : Char → Bool) (compute : Compute) (version : Text) : Text :=
  saveText printable (compute version ++ [(versionName, .str version)])

/-- After the import of the cache, `/repo/paradigm/_core/stubs.py:52-62,975-980,989-993`,
`/repo/paradigm/_core/modules.py:28-35,98-99`. -/
def afterImport (harmless : Text → Bool) (compute : Compute) (p : Process) (text : Text) : StartPhase :=
  match cachedTables harmless ((compute p.version).map Prod.fst) p.version (some text) with
  | some tables => .settled tables
  | none => if p.main then .computed else .settled ((compute p.version).map fun _ => .dict [])

/-- A step of process `i`; `pieces` tells whether files may be read piece by piece. -/
inductive Step (printable : Char → Bool) (harmless : Text → Bool) (compute : Compute)
    (processes : Nat → Process) (pieces : Bool) (i : Nat) (s : Shared) : Shared → Prop where
  /-- there is no file to import -/
  | missing : s.phases i = .fresh → s.file = none →
      Step printable harmless compute processes pieces i s (s.put i
        (if (processes i).main then .computed
          else .settled ((compute (processes i).version).map fun _ => .dict [])))
  /-- a compiled file is imported -/
  | compiled (t text : Text) : s.phases i = .fresh → s.file = some t → text ∈ s.compiled →
      Step printable harmless compute processes pieces i s
        (s.put i (afterImport harmless compute (processes i) text))
  /-- the file is imported, and is read at once -/
  | whole (t : Text) : s.phases i = .fresh → s.file = some t →
      Step printable harmless compute processes pieces i s
        ({ s with compiled := t :: s.compiled }.put i (afterImport harmless compute (processes i) t))
  /-- the file is imported, and is read piece by piece -/
  | begin (t : Text) : pieces = true → s.phases i = .fresh → s.file = some t →
      Step printable harmless compute processes pieces i s (s.put i (.reading []))
  | read (t seen : Text) (count : Nat) : pieces = true → s.phases i = .reading seen → s.file = some t →
      Step printable harmless compute processes pieces i s
        (s.put i (.reading (seen ++ (t.drop seen.length).take count)))
  | imported (t seen : Text) : s.phases i = .reading seen → s.file = some t → t.length ≤ seen.length →
      Step printable harmless compute processes pieces i s
        ({ s with compiled := seen :: s.compiled }.put i (afterImport harmless compute (processes i) seen))
  /-- the file cannot be opened -/
  | unopened : s.phases i = .computed →
      Step printable harmless compute processes pieces i s (s.put i .finished)
  /-- the file is opened -/
  | opened : s.phases i = .computed →
      Step printable harmless compute processes pieces i s ({ s with file := some [] }.put i (.writing 0))
  | write (t : Text) (position count : Nat) : s.phases i = .writing position → s.file = some t →
      Step printable harmless compute processes pieces i s
        ({ s with file := some (writeAt position
            (((savedText printable compute (processes i).version).drop position).take count) t) }.put i
          (.writing (position + count)))
  /-- everything is written -/
  | closed (position : Nat) : s.phases i = .writing position →
      (savedText printable compute (processes i).version).length ≤ position →
      Step printable harmless compute processes pieces i s (s.put i (.compiling []))
  /-- writing fails -/
  | failed (position : Nat) : s.phases i = .writing position →
      Step printable harmless compute processes pieces i s (s.put i .finished)
  /-- the file is compiled -/
  | compileWhole (t seen : Text) : s.phases i = .compiling seen → s.file = some t →
      Step printable harmless compute processes pieces i s
        ({ s with compiled := t :: s.compiled }.put i .finished)
  | readBack (t seen : Text) (count : Nat) : pieces = true → s.phases i = .compiling seen → s.file = some t →
      Step printable harmless compute processes pieces i s
        (s.put i (.compiling (seen ++ (t.drop seen.length).take count)))
  | compiledPieces (t seen : Text) : s.phases i = .compiling seen → s.file = some t → pieces = true →
      t.length ≤ seen.length →
      Step printable harmless compute processes pieces i s
        ({ s with compiled := seen :: s.compiled }.put i .finished)

/-- Steps of the processes listed, in order. -/
inductive Steps (printable : Char → Bool) (harmless : Text → Bool) (compute : Compute)
    (processes : Nat → Process) (pieces : Bool) (s : Shared) : List Nat → Shared → Prop where
  | none : Steps printable harmless compute processes pieces s [] s
  | next (is : List Nat) (i : Nat) (t u : Shared) : Steps printable harmless compute processes pieces s is t →
      Step printable harmless compute processes pieces i t u →
      Steps printable harmless compute processes pieces s (is ++ [i]) u

/-- Before any process has begun. -/
def Shared.initial (file : Option Text) (compiled : List Text) : Shared := ⟨file, compiled, fun _ => .fresh⟩

/-- The tables that a process uses, if it has any yet. -/
def StartPhase.tables? (computes : List Data) : StartPhase → Option (List Data)
  | .fresh | .reading _ => none
  | .settled tables => some tables
  | .computed | .writing _ | .compiling _ | .finished => some computes

end Paradigm
