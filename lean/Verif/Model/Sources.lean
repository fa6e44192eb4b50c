import Verif.Model.Stubs

/-!
# Model of `catalog.py` (paths), `sources.py` and `discovery.py`

Names of files are lists of characters. File systems are lists of files in the order of `os.walk`
(see `Model/FileSystem.lean` for these lists).
Environment: CPython 3.11 on Linux where suffixes of modules matter
(`importlib.machinery.all_suffixes()`).
-/

namespace Paradigm

/-! ### Paths -/

/-- `catalog.path_to_string`, `/repo/paradigm/_core/catalog.py:22-23`. -/
def pathToString (value : Path) : String := ".".intercalate value

/-- `catalog.path_to_parent`, `/repo/paradigm/_core/catalog.py:18-19`. -/
def pathToParent (value : Path) : Path := value.dropLast

/-- `catalog.is_attribute`, `/repo/paradigm/_core/catalog.py:90-91`. -/
def isAttribute (path : Path) : Bool := decide (1 < path.length)

/-! ### Names of files -/

/-- `PurePath.suffixes` of a name (standard library). -/
def suffixes (name : List Char) : List (List Char) :=
  if name.getLast? = some '.' then []
  else ((splitDots (name.dropWhile (· == '.'))).drop 1).map ('.' :: ·)

/-- `(PurePath.stem, PurePath.suffix)` of a name (standard library): cut at the last dot, unless that
is the first or the last character. -/
def splitSuffix (name : List Char) : List Char × List Char :=
  let extension := (name.reverse.takeWhile (· != '.')).reverse
  match name.reverse.dropWhile (· != '.') with
  | [] => (name, [])
  | [_] => (name, [])
  | _ :: stem => if extension.isEmpty then (name, []) else (stem.reverse, '.' :: extension)

/-- `PurePath.with_suffix` of a name (standard library). -/
def withSuffix (name suffix : List Char) : List Char :=
  let (stem, old) := splitSuffix name
  if old.isEmpty then name ++ suffix else stem ++ suffix

/-- `importlib.machinery.SOURCE_SUFFIXES + EXTENSION_SUFFIXES`. -/
def sourceSuffixes : List (List Char) :=
  [".py".toList, ".cpython-311-x86_64-linux-gnu.so".toList, ".abi3.so".toList, ".so".toList]

/-- `importlib.machinery.all_suffixes()`, the longest ones first. -/
def moduleSuffixes : List (List Char) :=
  [".cpython-311-x86_64-linux-gnu.so".toList, ".abi3.so".toList, ".pyc".toList, ".py".toList,
   ".so".toList]

/-- `inspect.getmodulename` (standard library). -/
def getModuleName (name : List Char) : Option (List Char) :=
  (moduleSuffixes.find? (·.isSuffixOf name)).map fun suffix => name.take (name.length - suffix.length)

/-! ### `sources.py` -/

/-- A file below a root directory: `path.relative_to(root).parts` is `parents` followed by `name`. -/
structure File where
  parents : Path
  name : List Char
deriving DecidableEq

/-- `file_system.INIT_MODULE_NAME`, `/repo/paradigm/_core/file_system.py:11`. -/
def initName : List Char := "__init__".toList

/-- `_relative_file_path_to_module_path`, `/repo/paradigm/_core/sources.py:68-76`. Not modelled: the
assertion that the path is relative. -/
def moduleOfFile (f : File) : Path :=
  match getModuleName f.name with
  | none => f.parents
  | some name => if name = initName then f.parents else f.parents ++ [String.ofList name]

/-- `_is_stub`, `/repo/paradigm/_core/sources.py:64-65`. -/
def isStubFile (f : File) : Bool := suffixes f.name == [".pyi".toList]

/-- `to_module_path` of `_to_stubs_cache`, `/repo/paradigm/_core/sources.py:54-57`. -/
def moduleOfStub (f : File) : Path := moduleOfFile { f with name := withSuffix f.name ".py".toList }

/-- `_to_stubs_cache`, `/repo/paradigm/_core/sources.py:49-61`: a later file takes the place of an
earlier one with the same module path. -/
def stubsCache (files : List File) : Dict Path File :=
  (files.filter isStubFile).foldl (fun d f => dictSet d (moduleOfStub f) f) []

/-- `is_source_path` of `_to_modules_paths`, `/repo/paradigm/_core/sources.py:89-95`. -/
def isSourceFile (f : File) : Bool := sourceSuffixes.contains (suffixes f.name).flatten

/-- `_to_modules_paths`, `/repo/paradigm/_core/sources.py:86-104` (a set). -/
def modulesOfFiles (files : List File) : List Path := (files.filter isSourceFile).map moduleOfFile

/-- `is_package`, `/repo/paradigm/_core/sources.py:23-38`; `origin` is the name of the file
`find_spec` gives for a module without stub (`none` if there is none). -/
def isPackagePath (cache : Dict Path File) (origin : Path → Option (List Char)) (m : Path) : Bool :=
  match cache.lookup m with
  | some f => (splitSuffix f.name).1 == initName
  | none =>
    match origin m with
    | none => false
    | some name => (splitSuffix name).1 == initName

/-- `_is_valid_module_path`, `/repo/paradigm/_core/sources.py:107-115`; `isIdentifier` is
`str.isidentifier`. -/
def isValidModulePath (isIdentifier : String → Bool) (m : Path) : Bool :=
  !m.isEmpty && !m.contains "test" && !m.contains "tests" && m.getLast? != some "__main__"
    && m.all fun part => isIdentifier part
      && !("_test".toList.isPrefixOf part.toList || "test_".toList.isPrefixOf part.toList)
      && !"_test".toList.isSuffixOf part.toList

/-- `dict.fromkeys(...).keys()`: the first occurrence of each. -/
def firstOccurrences : List Path → List Path
  | [] => []
  | p :: ps => p :: (firstOccurrences ps).filter (· != p)

/-- `stdlib_modules_paths`, `/repo/paradigm/_core/sources.py:118-125`. -/
def stdlibModules (isIdentifier : String → Bool) (builtinNames : List String)
    (directories : List (List File)) : List Path :=
  firstOccurrences (builtinNames.map pathFromString
    ++ directories.flatMap fun files => (modulesOfFiles files).filter (isValidModulePath isIdentifier))

/-! ### `discovery.py` -/

/-- `_recursively_update_modules_paths`, `/repo/paradigm/_core/discovery.py:10-18`; sets are lists
whose order and repetitions do not matter. -/
def updateRecursively (stdlib : List Path) (set : List Path) (names : List String) : List Path :=
  let paths := names.map pathFromString
  set ++ paths ++ stdlib.filter fun candidate =>
    paths.any fun path => candidate.take path.length == path

/-- What `discovery.py` reads from `sys`. -/
structure Platform where
  pypy : Bool
  win32 : Bool
  darwin : Bool
  /-- `sys.version_info[1]` of Python 3. -/
  minor : Nat

/-- The calls of `_recursively_update_modules_paths`, `/repo/paradigm/_core/discovery.py:22-154`, one
list of names for each. -/
def unsupportedNames (e : Platform) : List (List String) :=
  [["antigravity", "crypt", "idlelib", "lib2to3.pgen2.conv", "this", "tkinter", "turtle",
    "turtledemo"]]
  ++ if e.pypy then
    [["__decimal", "_crypt", "_curses_build", "_scproxy", "future_builtins", "identity_dict",
      "msilib", "symtable", "tracemalloc"]]
    ++ (if e.win32 then
      [["_curses", "_curses_panel", "_dbm", "_gdbm", "_posixshmem", "_resource_build",
        "_sqlite3_build", "_sysconfigdata", "_tkinter", "asyncio.unix_events",
        "cffi._pycparser._build_tables", "ctypes_support", "curses", "dbm.gnu", "dbm.ndbm",
        "distutils.command.bdist_msi", "distutils.command.bdist_wininst",
        "distutils.sysconfig_cpython", "distutils.sysconfig_pypy", "grp",
        "multiprocessing.popen_fork", "multiprocessing.popen_forkserver",
        "multiprocessing.popen_spawn_posix", "pty", "pyrepl._minimal_curses", "pyrepl.curses",
        "pyrepl.fancy_termios", "pyrepl.keymaps", "pyrepl.pygame_console", "pyrepl.pygame_keymap",
        "pyrepl.readline", "pyrepl.simple_interact", "pyrepl.unix_console",
        "pyrepl.unix_eventqueue", "readline", "resource", "syslog", "tty"]]
    else
      [["_overlapped", "_tkinter", "_winapi", "asyncio.windows_events", "asyncio.windows_utils",
        "cffi._pycparser._build_tables", "distutils._msvccompiler",
        "distutils.command.bdist_wininst", "distutils.command.bdist_msi",
        "distutils.msvc9compiler", "distutils.sysconfig_cpython", "distutils.sysconfig_pypy",
        "encodings.mbcs", "encodings.oem", "msvcrt", "multiprocessing.popen_spawn_win32",
        "pyrepl.keymaps", "pyrepl.pygame_console", "pyrepl.pygame_keymap"]])
    ++ (if 9 ≤ e.minor then [["_cffi_ssl._cffi_src.build_openssl", "_ssl_build"]] else [])
  else
    [["distutils._msvccompiler", "distutils.command.bdist_msi"]]
    ++ (if e.minor < 10 then [["distutils.command.bdist_wininst"]] else [])
    ++ if e.win32 then
      [["curses", "pty", "tty"],
       ["asyncio.unix_events", "dbm.gnu", "dbm.ndbm", "multiprocessing.popen_fork",
        "multiprocessing.popen_forkserver", "multiprocessing.popen_spawn_posix"]]
    else
      [["asyncio.windows_events", "asyncio.windows_utils", "ctypes.wintypes",
        "distutils.msvc9compiler", "encodings.mbcs", "encodings.oem",
        "multiprocessing.popen_spawn_win32"]]
      ++ if e.darwin then [["dbm.gnu", "distutils._msvccompiler"]] else []

/-- The condition in `/repo/paradigm/_core/discovery.py:43-48`. -/
def pypyInternal (path : Path) : Bool :=
  (match path with
    | [] => false
    | head :: _ => ["__pypy", "_hpy", "_pypy", "hpy"].any fun p => p.toList.isPrefixOf head.toList)
  || path.contains "__pycache__"

/-- `unsupported_stdlib_modules_paths`, `/repo/paradigm/_core/discovery.py:21-154`. Simplified: the
set is filled in another order. -/
def unsupportedModules (e : Platform) (stdlib : List Path) : List Path :=
  (unsupportedNames e).foldl (updateRecursively stdlib)
    (if e.pypy then stdlib.filter pypyInternal else [])

/-- `supported_stdlib_modules_paths`, `/repo/paradigm/_core/discovery.py:156-160`. -/
def supportedModules (e : Platform) (stdlib : List Path) : List Path :=
  stdlib.filter fun m => !(unsupportedModules e stdlib).contains m

end Paradigm
