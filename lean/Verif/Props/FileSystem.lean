import Verif.Lemmas.FileSystem
import Verif.Props.Sources

/-!
# C106: the modules that are found in directories
-/

namespace Paradigm.Props

open Spec

theorem splitDots_stem : ∀ {stem : List Char} (rest : List Char), '.' ∉ stem →
    splitDots (stem ++ '.' :: rest) = stem :: splitDots rest
  | [], rest, _ => by simp [splitDots]
  | c :: stem, rest, h => by
    simp only [List.mem_cons, not_or] at h
    have hc : (c == '.') = false := beq_eq_false_iff_ne.2 fun e => h.1 e.symm
    rw [List.cons_append, splitDots, splitDots_stem rest h.2]
    simp [hc]

theorem splitDots_flatten : ∀ cs : List Char,
    (((splitDots cs).drop 1).map ('.' :: ·)).flatten = cs.dropWhile (· != '.')
  | [] => rfl
  | c :: cs => by
    rw [splitDots]
    by_cases hc : c = '.'
    · subst hc
      simp only [beq_self_eq_true, if_true, List.drop_succ_cons, List.drop_zero, List.dropWhile_cons,
        bne_self_eq_false, Bool.false_eq_true, if_false]
      exact dots_join cs
    · have h1 : (c == '.') = false := by simp [hc]
      have h2 : (c != '.') = true := by simp [hc]
      have ih := splitDots_flatten cs
      simp only [h1, Bool.false_eq_true, if_false, List.dropWhile_cons, h2, if_true]
      cases hs : splitDots cs with
      | nil => rw [hs] at ih; simpa using ih
      | cons p ps => rw [hs] at ih; simpa using ih
where
  dots_join : ∀ cs : List Char, ((splitDots cs).map ('.' :: ·)).flatten = '.' :: cs
    | [] => rfl
    | c :: cs => by
      have ih := dots_join cs
      rw [splitDots]
      by_cases hc : c = '.'
      · subst hc
        simp only [beq_self_eq_true, if_true, List.map_cons, List.flatten_cons, ih]
        rfl
      · have h1 : (c == '.') = false := by simp [hc]
        simp only [h1, Bool.false_eq_true, if_false]
        cases hs : splitDots cs with
        | nil => rw [hs] at ih; simp at ih
        | cons p ps =>
          rw [hs] at ih
          simp only [List.map_cons, List.flatten_cons, List.cons_append, List.cons.injEq, true_and] at ih ⊢
          exact ih

theorem suffixes_flatten {name : List Char} (h : name.getLast? ≠ some '.') :
    (suffixes name).flatten = (name.dropWhile (· == '.')).dropWhile (· != '.') := by
  rw [suffixes, if_neg h, splitDots_flatten]

/-- A name without dots before a suffix. -/
theorem suffixes_stem {stem suffix : List Char} (hne : stem ≠ []) (hs : '.' ∉ stem)
    (hd : suffix.head? = some '.') (hl : suffix.getLast? ≠ some '.') :
    (suffixes (stem ++ suffix)).flatten = suffix := by
  cases suffix with
  | nil => cases hd
  | cons d rest =>
    cases hd
    rw [suffixes_flatten]
    · cases stem with
      | nil => exact absurd rfl hne
      | cons c stem =>
        simp only [List.mem_cons, not_or] at hs
        have hc : (c == '.') = false := beq_eq_false_iff_ne.2 fun e => hs.1 e.symm
        have hall : ∀ x ∈ c :: stem, (x != '.') = true := by
          intro x hx
          simp only [bne_iff_ne, ne_eq]
          rintro rfl
          rcases List.mem_cons.1 hx with h | h
          · exact hs.1 h
          · exact hs.2 h
        rw [List.cons_append, List.dropWhile_cons, hc]
        simp only [Bool.false_eq_true, if_false]
        rw [← List.cons_append, List.dropWhile_append_of_pos hall]
        simp
    · rwa [List.getLast?_append, Option.or_of_isSome (by simp)]

theorem sourceSuffix_shape : ∀ s ∈ moduleSuffixes, s.head? = some '.' ∧ s.getLast? ≠ some '.' := by decide

theorem source_isModuleSuffix : ∀ s ∈ sourceSuffixes, s ∈ moduleSuffixes := by decide

theorem isSourceFile_stem {parents : Path} {stem suffix : List Char} (hne : stem ≠ []) (hs : '.' ∉ stem)
    (h : suffix ∈ sourceSuffixes) : isSourceFile ⟨parents, stem ++ suffix⟩ = true := by
  obtain ⟨h1, h2⟩ := sourceSuffix_shape _ (source_isModuleSuffix _ h)
  rw [isSourceFile, suffixes_stem hne hs h1 h2]
  exact List.contains_iff_mem.2 h

theorem isStubFile_stem {parents : Path} {stem : List Char} (hne : stem ≠ []) (hs : '.' ∉ stem) :
    isStubFile ⟨parents, stem ++ ".pyi".toList⟩ = true := by
  have hl : (stem ++ ".pyi".toList).getLast? ≠ some '.' := by
    rw [List.getLast?_append, Option.or_of_isSome (by decide)]
    decide
  have hd : (stem ++ ".pyi".toList).dropWhile (· == '.') = stem ++ ".pyi".toList := by
    cases stem with
    | nil => exact absurd rfl hne
    | cons c stem =>
      simp only [List.mem_cons, not_or] at hs
      have hc : (c == '.') = false := beq_eq_false_iff_ne.2 fun e => hs.1 e.symm
      rw [List.cons_append, List.dropWhile_cons, hc]
      rfl
  unfold isStubFile suffixes
  rw [if_neg hl, hd]
  have : stem ++ ".pyi".toList = stem ++ '.' :: "pyi".toList := rfl
  rw [this, splitDots_stem _ hs]
  rfl

theorem getModuleName_some {name n : List Char} (h : getModuleName name = some n) :
    ∃ s ∈ moduleSuffixes, name = n ++ s := by
  unfold getModuleName at h
  rw [Option.map_eq_some_iff] at h
  obtain ⟨s, hs, rfl⟩ := h
  have h1 := List.find?_some hs
  rw [List.isSuffixOf_iff_suffix] at h1
  obtain ⟨t, rfl⟩ := h1
  exact ⟨s, List.mem_of_find?_eq_some hs, by simp⟩

theorem sourceFile_named {f : File} (h : isSourceFile f = true) : ∃ n, getModuleName f.name = some n := by
  have hm : (suffixes f.name).flatten ∈ sourceSuffixes := List.contains_iff_mem.1 h
  have hsuf : (suffixes f.name).flatten <:+ f.name := by
    by_cases hl : f.name.getLast? = some '.'
    · rw [suffixes, if_pos hl]
      exact List.nil_suffix
    · rw [suffixes_flatten hl]
      exact (List.dropWhile_suffix _).trans (List.dropWhile_suffix _)
  unfold getModuleName
  cases hf : moduleSuffixes.find? (·.isSuffixOf f.name) with
  | some s => exact ⟨_, rfl⟩
  | none =>
    rw [List.find?_eq_none] at hf
    exact absurd (List.isSuffixOf_iff_suffix.2 hsuf) (hf _ (source_isModuleSuffix _ hm))

/-! ### C106 -/

/-- **C106**, files, full statement: the files that are found are those of the directory. -/
def C106_files_statement : Prop :=
  ∀ (directory : Entry) (parents : Path) (name : String), DistinctEntries directory →
    (⟨parents, name.toList⟩ ∈ findFilesPaths directory ↔ FileAt directory parents name)

/-- A package that is a link to another directory. -/
def linkedLibrary : Entry :=
  .directory false true [("a", .directory true true [("__init__.py", .file)])]

/-- Directories that are links are not entered. -/
theorem C106_files_refuted : ¬ C106_files_statement := by
  intro h
  have := (h linkedLibrary ["a"] "__init__.py"
    (by simp [linkedLibrary, DistinctEntries, DistinctEntriesAll])).2
    ⟨_, List.mem_singleton.2 rfl, List.mem_singleton.2 rfl⟩
  exact absurd this (by decide)

/-- **C106**, files: every file of a directory whose directories can be listed and are no links is found,
and nothing else. -/
theorem C106_files_partial (directory : Entry) (h : Listable directory) (parents : Path) (name : String) :
    ⟨parents, name.toList⟩ ∈ findFilesPaths directory ↔ FileAt directory parents name := by
  rw [mem_findFilesPaths]
  constructor
  · rintro ⟨files, name', h1, h2, h3⟩
    have : name = name' := String.toList_inj.1 h3
    subst this
    obtain ⟨rest, hr, hf⟩ := walkTree_sound [] parents files name directory h1 h2
    rw [hr]
    exact hf
  · intro hf
    obtain ⟨files, h1, h2⟩ := walkTree_complete name parents [] directory h hf
    exact ⟨files, name, h1, h2, rfl⟩

/-- **C106**, files: whatever the directory, only its files are found, each once. -/
theorem C106_once (directory : Entry) (h : DistinctEntries directory) :
    (findFilesPaths directory).Nodup ∧
      ∀ f ∈ findFilesPaths directory, FileAt directory f.parents (String.ofList f.name) := by
  obtain ⟨h1, h2⟩ := walkTree_nodup [] directory h
  refine ⟨nodup_pairs _ h1 h2, fun f hf => ?_⟩
  obtain ⟨files, name, h3, h4, h5⟩ := mem_findFilesPaths.1 hf
  obtain ⟨rest, hr, hfile⟩ := walkTree_sound [] f.parents files name directory h3 h4
  rw [h5, String.ofList_toList, hr]
  exact hfile

/-- The names of a module that `stdlib_modules_paths` is meant to have. -/
def ProperName (isIdentifier : String → Bool) (m : Path) : Prop :=
  m ≠ [] ∧ m.getLast? ≠ some "__main__" ∧ ∀ part ∈ m, isIdentifier part = true ∧ ¬ TestName part

/-- **C106**, full statement: every module that Python finds in the library is among the standard modules,
unless it is a test or a `__main__` module. -/
def C106_statement : Prop :=
  ∀ (isIdentifier : String → Bool) (builtinNames : List String) (library : Entry) (m : Path),
    DistinctEntries library → (∀ part, isIdentifier part = true → part ≠ "" ∧ '.' ∉ part.toList) →
    Importable library m → ProperName isIdentifier m →
    m ∈ stdlibModules isIdentifier builtinNames [findFilesPaths library]

/-- `lib-dynload/math.cpython-311-x86_64-linux-gnu.so`. -/
def dynloadLibrary : Entry :=
  .directory false true [("lib-dynload",
    .directory false true [("math.cpython-311-x86_64-linux-gnu.so", .file)])]

/-- Extension modules are taken for `lib-dynload.math`, which is no name of a module. -/
theorem C106_refuted : ¬ C106_statement := by
  intro h
  have := h (fun part => part == "math") [] dynloadLibrary ["math"]
    (by simp [dynloadLibrary, DistinctEntries, DistinctEntriesAll])
    (by
      intro part hp
      rw [beq_iff_eq] at hp
      subst hp
      decide)
    (.inr ⟨false, true, _, _, rfl, List.mem_singleton.2 rfl, [], "math".toList,
      ".cpython-311-x86_64-linux-gnu.so".toList, by decide, by decide, List.mem_singleton.2 rfl,
      .inr ⟨by decide, rfl⟩⟩)
    ⟨by decide, by decide, by
      intro part hp
      rw [List.mem_singleton] at hp
      subst hp
      refine ⟨rfl, ?_⟩
      unfold TestName
      rintro (h | h | h | h | h)
      · exact absurd h (by decide)
      · exact absurd h (by decide)
      · exact absurd (List.isPrefixOf_iff_prefix.2 h) (by decide)
      · exact absurd (List.isPrefixOf_iff_prefix.2 h) (by decide)
      · exact absurd (List.isSuffixOf_iff_suffix.2 h) (by decide)⟩
  exact absurd this (by decide)

/-- **C106**, a library without links: every module in the library itself (not in `lib-dynload`) is among
the standard modules. Missing: extension modules in `lib-dynload`, for which the full statement is false,
and directories that are links. -/
theorem C106_library_partial (isIdentifier : String → Bool) (builtinNames : List String)
    (libraries : List Entry) (library : Entry) (hm : library ∈ libraries) (h : Listable library) (m : Path)
    (hid : ∀ part, isIdentifier part = true → part ≠ "" ∧ '.' ∉ part.toList)
    (hin : ModuleIn library sourceSuffixes m) (hp : ProperName isIdentifier m) :
    m ∈ stdlibModules isIdentifier builtinNames (libraries.map findFilesPaths) := by
  rw [C59_stdlib]
  obtain ⟨parents, stem, suffix, hs, hdot, hf, hm'⟩ := hin
  refine .inr ⟨_, List.mem_map_of_mem hm, ⟨parents, stem ++ suffix⟩, ?_, ?_, ?_, hp.1, hp.2.1, hp.2.2⟩
  · have := (C106_files_partial library h parents (String.ofList (stem ++ suffix))).2 hf
    rwa [String.toList_ofList] at this
  · refine isSourceFile_stem ?_ hdot hs
    rcases hm' with ⟨rfl, -⟩ | ⟨-, rfl⟩
    · decide
    · rintro rfl
      exact (hid _ (hp.2.2 (String.ofList []) (by simp)).1).1 rfl
  · have := C59_module parents stem suffix hdot hs
    rw [fileOf] at this
    rw [this]
    rcases hm' with ⟨rfl, rfl⟩ | ⟨hne, rfl⟩
    · exact if_pos rfl
    · exact if_neg hne

/-- **C106**, nothing else: every standard module is a builtin one or has a file in a library. -/
theorem C106_only (isIdentifier : String → Bool) (builtinNames : List String) (libraries : List Entry)
    (m : Path) (hid : ∀ part, isIdentifier part = true → part ≠ "" ∧ '.' ∉ part.toList)
    (h : m ∈ stdlibModules isIdentifier builtinNames (libraries.map findFilesPaths)) :
    (∃ name ∈ builtinNames, m = pathFromString name) ∨
      ProperName isIdentifier m ∧ ∃ library ∈ libraries, ModuleIn library sourceSuffixes m := by
  rw [C59_stdlib] at h
  rcases h with h | ⟨files, hfs, f, hf, hsrc, hmod, h1, h2, h3⟩
  · exact .inl h
  · refine .inr ⟨⟨h1, h2, h3⟩, ?_⟩
    obtain ⟨library, hl, rfl⟩ := List.mem_map.1 hfs
    refine ⟨library, hl, ?_⟩
    obtain ⟨names, name, h4, h5, h6⟩ := mem_findFilesPaths.1 hf
    obtain ⟨rest, hr, hfile⟩ := walkTree_sound [] f.parents names name library h4 h5
    rw [List.nil_append] at hr
    obtain ⟨n, hn⟩ := sourceFile_named hsrc
    obtain ⟨s, hs, hname⟩ := getModuleName_some hn
    have hstem : n ≠ [] ∧ '.' ∉ n := by
      rw [moduleOfFile, hn] at hmod
      dsimp only at hmod
      by_cases hi : n = initName
      · subst hi
        decide
      · rw [if_neg hi] at hmod
        have := hid _ (h3 (String.ofList n) (by rw [← hmod]; simp)).1
        rw [String.toList_ofList] at this
        refine ⟨fun e => this.1 (by rw [e]), this.2⟩
    obtain ⟨hd, hlast⟩ := sourceSuffix_shape s hs
    have hsrc' : s ∈ sourceSuffixes := by
      rw [isSourceFile, hname, suffixes_stem hstem.1 hstem.2 hd hlast] at hsrc
      exact List.contains_iff_mem.1 hsrc
    refine ⟨f.parents, n, s, hsrc', hstem.2, ?_, ?_⟩
    · rw [← hname, h6, String.ofList_toList, hr]
      exact hfile
    · rw [moduleOfFile, hn] at hmod
      dsimp only at hmod
      by_cases hi : n = initName
      · rw [if_pos hi] at hmod
        exact .inl ⟨hi, hmod.symm⟩
      · rw [if_neg hi] at hmod
        exact .inr ⟨hi, hmod.symm⟩

/-- **C106**, stubs: in a directory of stubs without links a module (with a proper name) is known exactly
if it has a stub file there. -/
theorem C106_stubs_partial (directory : Entry) (h : Listable directory) (m : Path) (hne : m ≠ [])
    (hparts : ∀ part ∈ m, part ≠ "" ∧ '.' ∉ part.toList) :
    ((stubsCache (findFilesPaths directory)).lookup m).isSome ↔ ModuleIn directory [".pyi".toList] m := by
  have hcache : ∀ files : List File, ((stubsCache files).lookup m).isSome ↔
      ∃ f ∈ files, isStubFile f = true ∧ moduleOfStub f = m := by
    intro files
    constructor
    · intro hs
      obtain ⟨f, hf⟩ := Option.isSome_iff_exists.1 hs
      obtain ⟨before, after, rfl, h1, h2, -⟩ := (C59_stub_used files m f).1 hf
      exact ⟨f, by simp, h1, h2⟩
    · rintro ⟨f, hf, h1, h2⟩
      have : ∀ l : List File, (∃ f ∈ l, isStubFile f = true ∧ moduleOfStub f = m) →
          ∃ before f after, l = before ++ f :: after ∧ isStubFile f = true ∧ moduleOfStub f = m ∧
            ∀ g ∈ after, isStubFile g = true → moduleOfStub g ≠ m := by
        intro l
        induction l with
        | nil => rintro ⟨_, h, -⟩; cases h
        | cons x l ih =>
          rintro ⟨f, hf, h1, h2⟩
          by_cases hl : ∃ f ∈ l, isStubFile f = true ∧ moduleOfStub f = m
          · obtain ⟨b, g, a, rfl, hg⟩ := ih hl
            exact ⟨x :: b, g, a, rfl, hg⟩
          · rcases List.mem_cons.1 hf with rfl | hf
            · exact ⟨[], f, l, rfl, h1, h2, fun g hg hs hm => hl ⟨g, hg, hs, hm⟩⟩
            · exact absurd ⟨f, hf, h1, h2⟩ hl
      obtain ⟨b, g, a, he, hg⟩ := this files ⟨f, hf, h1, h2⟩
      rw [(C59_stub_used files m g).2 ⟨b, a, he, hg⟩]
      rfl
  rw [hcache]
  constructor
  · rintro ⟨f, hf, hs, hmod⟩
    obtain ⟨stem, hst, hfile, hm⟩ := C59_stub f hs
    rw [hmod] at hm
    have hname : f.name = stem ++ ".pyi".toList := congrArg File.name hfile
    refine ⟨f.parents, stem, ".pyi".toList, List.mem_singleton.2 rfl, ?_, ?_, ?_⟩
    · by_cases hi : stem = initName
      · subst hi
        decide
      · rw [if_neg hi] at hm
        have := (hparts (String.ofList stem) (by rw [hm]; simp)).2
        rwa [String.toList_ofList] at this
    · rw [← hname]
      refine (C106_files_partial directory h f.parents _).1 ?_
      rw [String.toList_ofList]
      exact hf
    · by_cases hi : stem = initName
      · rw [if_pos hi] at hm
        exact .inl ⟨hi, hm⟩
      · rw [if_neg hi] at hm
        exact .inr ⟨hi, hm⟩
  · rintro ⟨parents, stem, suffix, hs, hdot, hf, hm⟩
    rw [List.mem_singleton] at hs
    subst hs
    have hst : stem ≠ [] := by
      rcases hm with ⟨rfl, -⟩ | ⟨-, rfl⟩
      · decide
      · rintro rfl
        exact (hparts (String.ofList []) (by simp)).1 rfl
    refine ⟨⟨parents, stem ++ ".pyi".toList⟩, ?_, isStubFile_stem hst hdot, ?_⟩
    · have := (C106_files_partial directory h parents _).2 hf
      rwa [String.toList_ofList] at this
    · obtain ⟨stem', -, hfile, hmod⟩ := C59_stub ⟨parents, stem ++ ".pyi".toList⟩ (isStubFile_stem hst hdot)
      have : stem = stem' := by
        have := congrArg File.name hfile
        exact List.append_cancel_right this
      subst this
      rw [hmod]
      rcases hm with ⟨hi, rfl⟩ | ⟨hi, rfl⟩
      · exact if_pos hi
      · exact if_neg hi

/-- A package `a` with a module `b`. -/
def packageLibrary : Entry :=
  .directory false true [("a", .directory false true [("__init__.py", .file), ("b.py", .file)])]

example : Listable packageLibrary ∧ ModuleIn packageLibrary sourceSuffixes ["a", "b"] ∧
    ModuleIn packageLibrary sourceSuffixes ["a"] := by
  refine ⟨by simp [packageLibrary, Listable, ListableAll], ?_, ?_⟩
  · exact ⟨["a"], "b".toList, ".py".toList, by decide, by decide,
      ⟨_, List.mem_singleton.2 rfl, .tail _ (.head _)⟩, .inr ⟨by decide, rfl⟩⟩
  · exact ⟨["a"], "__init__".toList, ".py".toList, by decide, by decide,
      ⟨_, List.mem_singleton.2 rfl, .head _⟩, .inl ⟨rfl, rfl⟩⟩

example : DistinctEntries packageLibrary ∧ FileAt packageLibrary ["a"] "b.py" :=
  ⟨by simp [packageLibrary, DistinctEntries, DistinctEntriesAll],
    _, List.mem_singleton.2 rfl, .tail _ (.head _)⟩

example : stdlibModules (fun part => part == "a" || part == "b") ["sys"] [findFilesPaths packageLibrary]
    = [["sys"], ["a"], ["a", "b"]] := by decide +kernel

/-- A stub of a module in a package. -/
def packageStubs : Entry :=
  .directory false true [("a", .directory false true [("__init__.pyi", .file), ("b.pyi", .file)])]

example : Listable packageStubs ∧ ModuleIn packageStubs [".pyi".toList] ["a"] ∧
    ((stubsCache (findFilesPaths packageStubs)).lookup ["a"]).isSome ∧
    ((stubsCache (findFilesPaths packageStubs)).lookup ["c"]).isSome = false := by
  refine ⟨by simp [packageStubs, Listable, ListableAll], ?_, by decide +kernel, by decide +kernel⟩
  exact ⟨["a"], "__init__".toList, ".pyi".toList, by decide, by decide,
    ⟨_, List.mem_singleton.2 rfl, .head _⟩, .inl ⟨rfl, rfl⟩⟩

end Paradigm.Props
