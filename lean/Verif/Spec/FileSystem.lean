import Verif.Model.FileSystem

/-!
# Files in directories (specification)
-/

namespace Paradigm.Spec

/-- There is a file of that name in the directory `parents` below the given one. -/
def FileAt : Entry → Path → String → Prop
  | .file, _, _ => False
  | .directory _ _ entries, [], name => (name, .file) ∈ entries
  | .directory _ _ entries, part :: parents, name =>
    ∃ entry, (part, entry) ∈ entries ∧ FileAt entry parents name

mutual

/-- No two entries of a directory have the same name. -/
def DistinctEntries : Entry → Prop
  | .file => True
  | .directory _ _ entries => (entries.map Prod.fst).Nodup ∧ DistinctEntriesAll entries

def DistinctEntriesAll : List (String × Entry) → Prop
  | [] => True
  | (_, e) :: es => DistinctEntries e ∧ DistinctEntriesAll es

end

mutual

/-- No directory below this one is a link, and all of them can be listed. -/
def Listable : Entry → Prop
  | .file => True
  | .directory _ readable entries => readable = true ∧ ListableAll entries

def ListableAll : List (String × Entry) → Prop
  | [] => True
  | (_, e) :: es => (∀ readable below, e ≠ .directory true readable below) ∧ Listable e ∧ ListableAll es

end

/-- Where Python looks for a module in a directory: `a/b.suffix` or `a/b/__init__.suffix` for `a.b`. -/
def ModuleIn (directory : Entry) (suffixes : List (List Char)) (m : Path) : Prop :=
  ∃ parents stem suffix, suffix ∈ suffixes ∧ '.' ∉ stem ∧
    FileAt directory parents (String.ofList (stem ++ suffix)) ∧
    ((stem = "__init__".toList ∧ m = parents) ∨
      (stem ≠ "__init__".toList ∧ m = parents ++ [String.ofList stem]))

/-- The directories Python looks in for standard modules: the library, and `lib-dynload` in it for
extension modules. -/
def Importable (library : Entry) (m : Path) : Prop :=
  ModuleIn library sourceSuffixes m ∨
    ∃ linked readable entries dynload, library = .directory linked readable entries ∧
      ("lib-dynload", dynload) ∈ entries ∧ ModuleIn dynload sourceSuffixes m

end Paradigm.Spec
