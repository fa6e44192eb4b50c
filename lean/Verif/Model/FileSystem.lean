import Verif.Model.Sources

/-!
# Model of `file_system.py`

Directories are trees of entries in the order of `os.scandir`.
-/

namespace Paradigm

/-- An entry of a directory: a file (or a link to one), or a directory, which may be a link to one, and
whose entries can be listed or not. -/
inductive Entry where
  | file
  | directory (linked readable : Bool) (entries : List (String × Entry))

/-- `entry.is_dir()`, which follows links. -/
def Entry.isDirectory : Entry → Bool
  | .file => false
  | .directory .. => true

/-- A directory that is no link. -/
def Entry.isEntered : Entry → Bool
  | .file => false
  | .directory linked _ _ => !linked

mutual

/-- `map(itemgetter(0, 2), os.walk(top))` (standard library) with `topdown=True`, `onerror=None`,
`followlinks=False`: the parts of the directories below the first one, and the names of what is no
directory in them. What cannot be listed is left out. -/
def walkTree (root : Path) : Entry → List (Path × List String)
  | .file => []
  | .directory _ readable entries =>
    if readable then
      (root, (entries.filter fun e => !e.2.isDirectory).map Prod.fst) :: walkEntries root entries
    else []

/-- The recursion of `os.walk` into those directories that are no links. -/
def walkEntries (root : Path) : List (String × Entry) → List (Path × List String)
  | [] => []
  | (name, e) :: entries =>
    if e.isEntered then walkTree (root ++ [name]) e ++ walkEntries root entries
    else walkEntries root entries

end

/-- `find_files_paths`, `/repo/paradigm/_core/file_system.py:14-20`, relative to the directory. -/
def findFilesPaths (directory : Entry) : List File :=
  (walkTree [] directory).flatMap fun rf => rf.2.map fun name => ⟨rf.1, name.toList⟩

end Paradigm
