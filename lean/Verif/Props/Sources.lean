import Verif.Lemmas.Sources
import Verif.Lemmas.Parsing
import Verif.Spec.Stubs

/-!
# C50, C58, C59: dotted names, source files, unsupported modules
-/

namespace Paradigm.Props

open Spec

/-! ### C50 -/

/-- **C50**, full statement: splitting and joining are inverse to each other. -/
def C50_statement : Prop :=
  (∀ value : String, pathToString (pathFromString value) = value)
    ∧ ∀ path : Path, (∀ part ∈ path, '.' ∉ part.toList) →
      pathFromString (pathToString path) = path

/-- The empty path comes back as one empty part. -/
theorem C50_refuted : ¬ C50_statement := by
  intro h
  have := h.2 [] (by simp)
  exact absurd this (by decide)

/-- **C50**, first half. -/
theorem C50_join_split (value : String) : pathToString (pathFromString value) = value := by
  rw [← String.toList_inj, pathToString, String.toList_intercalate, pathFromString, List.map_map]
  have : ((splitDots value.toList).map (String.toList ∘ String.ofList)) = splitDots value.toList := by
    conv => rhs; rw [← List.map_id (splitDots value.toList)]
    exact List.map_congr_left fun x _ => by simp
  rw [this]
  exact join_splitDots value.toList

/-- **C50**, second half (missing: the empty path). -/
theorem C50_split_join_partial (path : Path) (hne : path ≠ [])
    (h : ∀ part ∈ path, '.' ∉ part.toList) : pathFromString (pathToString path) = path := by
  rw [pathFromString, pathToString, String.toList_intercalate]
  have := splitDots_join (path.map String.toList) (by simpa using hne) (by simpa using h)
  show (splitDots (['.'].intercalate _)).map _ = _
  rw [this, List.map_map]
  conv => rhs; rw [← List.map_id path]
  exact List.map_congr_left fun x _ => by simp

theorem dotted_foldl : ∀ (rest : List String) (e : Expr) (path : Path), dotted e = some path →
    dotted (rest.foldl (fun e attr => .attribute e attr true) e) = some (path ++ rest)
  | [], e, path, h => by simpa using h
  | attr :: rest, e, path, h => by
    rw [List.foldl_cons, dotted_foldl rest _ (path ++ [attr]) (by rw [dotted, h]; rfl)]
    simp

/-- **C50**, attribute chains: `to_path` accepts exactly names and their attributes, and gives their
parts. -/
theorem C50_to_path (e : Expr) (path : Path) : toPath e = .ok path ↔ dotted e = some path :=
  ⟨toPath_ok, toPath_of_dotted⟩

/-- Every path that is not empty is that of a chain. -/
theorem C50_chain (head : String) (rest : List String) :
    toPath (rest.foldl (fun e attr => .attribute e attr true) (.name head true))
      = .ok (head :: rest) :=
  toPath_of_dotted (dotted_foldl rest _ [head] rfl)

/-- Two chains (of names that are read) with the same path are equal. -/
theorem C50_chain_injective : ∀ (e e' : Expr) (path : Path),
    (∀ x ∈ subtrees e, (∀ id, x ≠ .name id false) ∧ ∀ v a, x ≠ .attribute v a false) →
    (∀ x ∈ subtrees e', (∀ id, x ≠ .name id false) ∧ ∀ v a, x ≠ .attribute v a false) →
    toPath e = .ok path → toPath e' = .ok path → e = e' := by
  intro e e' path hl hl' h h'
  rw [C50_to_path] at h h'
  have key : ∀ (e : Expr) (path : Path),
      (∀ x ∈ subtrees e, (∀ id, x ≠ .name id false) ∧ ∀ v a, x ≠ .attribute v a false) →
      dotted e = some path → ∃ head rest, path = head :: rest
        ∧ e = rest.foldl (fun e attr => .attribute e attr true) (.name head true) := by
    intro e
    induction e using dotted.induct with
    | case1 id load =>
      intro path hl h
      cases h
      refine ⟨id, [], rfl, ?_⟩
      cases load
      · exact absurd rfl ((hl (.name id false) (by simp [subtrees])).1 id)
      · rfl
    | case2 value attr load ih =>
      intro path hl h
      rw [dotted] at h
      cases hv : dotted value with
      | none => rw [hv] at h; cases h
      | some p =>
        rw [hv] at h
        cases h
        obtain ⟨head, rest, rfl, he⟩ := ih p (fun x hx => hl x (by
          rw [subtrees]; exact List.mem_cons_of_mem _ hx)) hv
        refine ⟨head, rest ++ [attr], rfl, ?_⟩
        cases load
        · exact absurd rfl ((hl (.attribute value attr false) (by simp [subtrees])).2 value attr)
        · rw [List.foldl_append, ← he]; rfl
    | case3 e h1 h2 =>
      intro path _ h
      cases e
      case name => exact absurd rfl (h1 _ _)
      case «attribute» => exact absurd rfl (h2 _ _ _)
      all_goals cases h
  obtain ⟨a, r, rfl, he⟩ := key e path hl h
  obtain ⟨a', r', hp, he'⟩ := key e' _ hl' h'
  cases hp
  rw [he, he']

/-- **C50**, parents: leaving out the last part. -/
theorem C50_parent (path : Path) (part : String) :
    pathToParent (path ++ [part]) = path ∧ (isAttribute (path ++ [part]) = true ↔ path ≠ []) := by
  refine ⟨by simp [pathToParent], ?_⟩
  cases path <;> simp [isAttribute]

example : pathFromString "os.path.join" = ["os", "path", "join"] := by decide
example : pathToString ["os", "path", "join"] = "os.path.join" := by decide

/-! ### C59 -/

/-- A file whose name is a stem and a suffix. -/
def fileOf (parents : Path) (stem suffix : List Char) : File := ⟨parents, stem ++ suffix⟩

/-- `f` is `x.suffix` and `g` is `x/__init__.suffix`. -/
def InitOf (f g : File) : Prop :=
  ∃ parents stem suffix suffix', f = fileOf parents stem suffix
    ∧ g = fileOf (parents ++ [String.ofList stem]) initName suffix'

/-- **C59**, full statement: `a/b.suffix` is module `a.b`, `a/b/__init__.suffix` is `a.b`, and two
source files of one module are `x.suffix` and `x/__init__.suffix`. -/
def C59_statement : Prop :=
  (∀ (parents : Path) (stem suffix : List Char), '.' ∉ stem → suffix ∈ sourceSuffixes →
      moduleOfFile (fileOf parents stem suffix)
        = if stem = initName then parents else parents ++ [String.ofList stem])
    ∧ ∀ f g : File, isSourceFile f = true → isSourceFile g = true → moduleOfFile f = moduleOfFile g →
      f = g ∨ InitOf f g ∨ InitOf g f

/-- `x.py` and `x.so` are the same module. -/
theorem C59_refuted : ¬ C59_statement := by
  intro h
  have no : ∀ n m : List Char, ¬ InitOf ⟨[], n⟩ ⟨[], m⟩ := by
    rintro n m ⟨parents, stem, _, _, -, h2⟩
    have := congrArg File.parents h2
    simp [fileOf] at this
  rcases h.2 ⟨[], "x.py".toList⟩ ⟨[], "x.so".toList⟩ (by decide) (by decide) (by decide) with h | h | h
  · exact absurd h (by decide)
  · exact no _ _ h
  · exact no _ _ h

/-- **C59**, first half: the module of a source file, or of a compiled one. -/
theorem C59_module (parents : Path) (stem suffix : List Char) (hs : '.' ∉ stem)
    (h : suffix ∈ sourceSuffixes) :
    moduleOfFile (fileOf parents stem suffix)
      = if stem = initName then parents else parents ++ [String.ofList stem] := by
  rw [moduleOfFile, fileOf, getModuleName_source hs h]

/-- The same for stub files: everything before `.pyi` is the name. -/
theorem C59_stub (f : File) (h : isStubFile f = true) :
    ∃ stem, stem ≠ [] ∧ f = fileOf f.parents stem ".pyi".toList
      ∧ moduleOfStub f
        = if stem = initName then f.parents else f.parents ++ [String.ofList stem] := by
  obtain ⟨stem, hne, hname⟩ := stub_name (by simpa [isStubFile] using h)
  refine ⟨stem, hne, by rw [fileOf, ← hname], ?_⟩
  have : withSuffix f.name ".py".toList = stem ++ ".py".toList := by
    rw [hname]; exact withSuffix_pyi hne
  rw [moduleOfStub, moduleOfFile]
  simp only [this, getModuleName_py]

/-- **C59**, second half (missing: files that are not stubs; there `x.py` and `x.so` collide). Two stub
files of one module are `x.pyi` and `x/__init__.pyi`. -/
theorem C59_stubs_distinct_partial (f g : File) (hf : isStubFile f = true) (hg : isStubFile g = true)
    (h : moduleOfStub f = moduleOfStub g) : f = g ∨ InitOf f g ∨ InitOf g f := by
  obtain ⟨a, -, hfa, ha⟩ := C59_stub f hf
  obtain ⟨b, -, hgb, hb⟩ := C59_stub g hg
  rw [ha, hb] at h
  by_cases h1 : a = initName <;> by_cases h2 : b = initName
  · rw [if_pos h1, if_pos h2] at h
    exact .inl (by rw [hfa, hgb, h, h1, h2])
  · rw [if_pos h1, if_neg h2] at h
    refine .inr (.inr ⟨g.parents, b, _, ".pyi".toList, hgb, ?_⟩)
    rw [← h, ← h1]; exact hfa
  · rw [if_neg h1, if_pos h2] at h
    refine .inr (.inl ⟨f.parents, a, _, ".pyi".toList, hfa, ?_⟩)
    rw [h, ← h2]; exact hgb
  · rw [if_neg h1, if_neg h2] at h
    obtain ⟨h3, h4⟩ := List.append_inj' h rfl
    have h5 : a = b := by
      have := congrArg String.toList (List.cons.inj h4).1
      simpa using this
    exact .inl (by rw [hfa, hgb, h3, h5])

/-- **C59**, packages: a module with stubs counts as a package exactly if its stub is an `__init__`. -/
theorem C59_package (cache : Dict Path File) (origin : Path → Option (List Char)) (m : Path) (f : File)
    (h : cache.lookup m = some f) (hf : isStubFile f = true) :
    isPackagePath cache origin m = true ↔ f.name = initName ++ ".pyi".toList := by
  obtain ⟨stem, hne, hfa, -⟩ := C59_stub f hf
  have hn : f.name = stem ++ ".pyi".toList := congrArg File.name hfa
  rw [isPackagePath, h]
  simp only [hn, splitSuffix_pyi hne, beq_iff_eq, List.append_left_inj]

/-- The stub file of a module is the last of its stub files in the order of the file system; files
that are no stubs are never used. -/
theorem C59_stub_used (files : List File) (m : Path) (f : File) :
    (stubsCache files).lookup m = some f ↔
      ∃ before after, files = before ++ f :: after ∧ isStubFile f = true ∧ moduleOfStub f = m ∧
        ∀ g ∈ after, isStubFile g = true → moduleOfStub g ≠ m := by
  have key : ∀ (fs : List File) (d : Dict Path File),
      ((fs.filter isStubFile).foldl (fun d f => dictSet d (moduleOfStub f) f) d).lookup m = some f ↔
        (∃ before after, fs = before ++ f :: after ∧ isStubFile f = true ∧ moduleOfStub f = m ∧
          ∀ g ∈ after, isStubFile g = true → moduleOfStub g ≠ m) ∨
        (d.lookup m = some f ∧ ∀ g ∈ fs, isStubFile g = true → moduleOfStub g ≠ m) := by
    intro fs
    induction fs with
    | nil => intro d; simp
    | cons x fs ih =>
      intro d
      by_cases hx : isStubFile x = true
      · rw [List.filter_cons_of_pos hx, List.foldl_cons, ih]
        by_cases hm : moduleOfStub x = m
        · rw [hm, lookup_dictSet_self]
          constructor
          · rintro (⟨b, a, rfl, h⟩ | ⟨h, h'⟩)
            · exact .inl ⟨x :: b, a, rfl, h⟩
            · cases h
              exact .inl ⟨[], fs, rfl, hx, hm, h'⟩
          · rintro (⟨b, a, hb, h⟩ | ⟨-, h⟩)
            · cases b with
              | nil => cases hb; exact .inr ⟨rfl, h.2.2⟩
              | cons y b => cases hb; exact .inl ⟨b, a, rfl, h⟩
            · exact absurd hm (h x (by simp) hx)
        · rw [lookup_dictSet_ne d x (fun h => hm h.symm)]
          constructor
          · rintro (⟨b, a, rfl, h⟩ | ⟨h, h'⟩)
            · exact .inl ⟨x :: b, a, rfl, h⟩
            · exact .inr ⟨h, fun g hg hs => by
                rcases List.mem_cons.1 hg with rfl | hg
                · exact hm
                · exact h' g hg hs⟩
          · rintro (⟨b, a, hb, h⟩ | ⟨h, h'⟩)
            · cases b with
              | nil => cases hb; exact absurd h.2.1 hm
              | cons y b => cases hb; exact .inl ⟨b, a, rfl, h⟩
            · exact .inr ⟨h, fun g hg => h' g (by simp [hg])⟩
      · rw [List.filter_cons_of_neg hx, ih]
        constructor
        · rintro (⟨b, a, rfl, h⟩ | ⟨h, h'⟩)
          · exact .inl ⟨x :: b, a, rfl, h⟩
          · exact .inr ⟨h, fun g hg hs => by
              rcases List.mem_cons.1 hg with rfl | hg
              · exact absurd hs hx
              · exact h' g hg hs⟩
        · rintro (⟨b, a, hb, h⟩ | ⟨h, h'⟩)
          · cases b with
            | nil => cases hb; exact absurd h.1 hx
            | cons y b => cases hb; exact .inl ⟨b, a, rfl, h⟩
          · exact .inr ⟨h, fun g hg => h' g (by simp [hg])⟩
  rw [stubsCache, key]
  simp

/-- A name without dots and a suffix without further dots. -/
theorem splitSuffix_single {stem ext : List Char} (hs : stem ≠ []) (he : ext ≠ [])
    (hd : '.' ∉ ext) : splitSuffix (stem ++ '.' :: ext) = (stem, '.' :: ext) := by
  have hrev : (stem ++ '.' :: ext).reverse = ext.reverse ++ '.' :: stem.reverse := by simp
  have hall : ∀ c ∈ ext.reverse, (c != '.') = true := by
    intro c hc
    rw [bne_iff_ne]
    rintro rfl
    exact hd (by simpa using hc)
  unfold splitSuffix
  rw [hrev, List.takeWhile_append_of_pos hall, List.dropWhile_append_of_pos hall]
  simp only [List.takeWhile_cons, List.dropWhile_cons, bne_self_eq_false, Bool.false_eq_true, if_false,
    List.append_nil, List.reverse_reverse]
  cases hst : stem.reverse with
  | nil => simp at hst; exact absurd hst hs
  | cons c t =>
    have : ext.isEmpty = false := by cases ext <;> simp_all
    simp only [this, Bool.false_eq_true, if_false]
    rw [← hst, List.reverse_reverse]

/-- **C59**, packages without stubs: a file `stem.ext` (without further dots in `ext`) makes a package
exactly if its stem is `__init__`. -/
theorem C59_package_source (cache : Dict Path File) (origin : Path → Option (List Char)) (m : Path)
    (stem ext : List Char) (h : cache.lookup m = none) (ho : origin m = some (stem ++ '.' :: ext))
    (hs : stem ≠ []) (he : ext ≠ []) (hd : '.' ∉ ext) :
    isPackagePath cache origin m = true ↔ stem = initName := by
  rw [isPackagePath, h, ho]
  simp only [splitSuffix_single hs he hd, beq_iff_eq]

/-- **C59**, packages without stubs, full statement: the file is an `__init__` with the suffix of a
module. -/
def C59_package_statement : Prop :=
  ∀ (cache : Dict Path File) (origin : Path → Option (List Char)) (m : Path) (stem suffix : List Char),
    cache.lookup m = none → '.' ∉ stem → stem ≠ [] → suffix ∈ sourceSuffixes →
    origin m = some (stem ++ suffix) → (isPackagePath cache origin m = true ↔ stem = initName)

/-- A package that is an extension module with a tagged suffix is not seen as one. -/
theorem C59_package_refuted : ¬ C59_package_statement := by
  intro h
  have := (h [] (fun _ => some "__init__.abi3.so".toList) ["p"] "__init__".toList ".abi3.so".toList rfl
    (by decide) (by decide) (by decide) rfl).2 (by decide)
  exact absurd this (by decide)

/-- A name that marks tests: `test`, `tests`, or beginning or ending like them. -/
def TestName (part : String) : Prop :=
  part = "test" ∨ part = "tests" ∨ "test_".toList <+: part.toList ∨ "_test".toList <+: part.toList ∨
    "_test".toList <:+ part.toList

/-- **C59**, the standard modules: the builtin ones and those of the source files, except test modules,
`__main__` modules and files whose path is no dotted name. -/
theorem C59_stdlib (isIdentifier : String → Bool) (builtinNames : List String)
    (directories : List (List File)) (m : Path) :
    m ∈ stdlibModules isIdentifier builtinNames directories ↔
      (∃ name ∈ builtinNames, m = pathFromString name) ∨
      (∃ files ∈ directories, ∃ f ∈ files, isSourceFile f = true ∧ moduleOfFile f = m ∧ m ≠ [] ∧
        m.getLast? ≠ some "__main__" ∧ ∀ part ∈ m, isIdentifier part = true ∧ ¬ TestName part) := by
  have first : ∀ (ps : List Path), m ∈ firstOccurrences ps ↔ m ∈ ps := by
    intro ps
    induction ps with
    | nil => rfl
    | cons p ps ih =>
      rw [firstOccurrences, List.mem_cons, List.mem_cons, List.mem_filter, ih]
      by_cases h : m = p <;> simp [h]
  have valid : isValidModulePath isIdentifier m = true ↔ m ≠ [] ∧ m.getLast? ≠ some "__main__" ∧
      ∀ part ∈ m, isIdentifier part = true ∧ ¬ TestName part := by
    unfold isValidModulePath TestName
    simp only [Bool.and_eq_true, List.all_eq_true, bne_iff_ne, ne_eq, Bool.not_eq_eq_eq_not,
      Bool.not_true, ← Bool.not_eq_true, List.contains_iff_mem, List.isEmpty_iff, Bool.or_eq_true,
      List.isPrefixOf_iff_prefix, List.isSuffixOf_iff_suffix, not_or]
    constructor
    · rintro ⟨⟨⟨⟨h1, h2⟩, h3⟩, h4⟩, h5⟩
      refine ⟨h1, h4, fun part hp => ?_⟩
      obtain ⟨⟨h6, h7, h8⟩, h9⟩ := h5 part hp
      exact ⟨h6, fun e => h2 (e ▸ hp), fun e => h3 (e ▸ hp), h8, h7, h9⟩
    · rintro ⟨h1, h2, h3⟩
      refine ⟨⟨⟨⟨h1, fun h => (h3 _ h).2.1 rfl⟩, fun h => (h3 _ h).2.2.1 rfl⟩, h2⟩, fun part hp => ?_⟩
      obtain ⟨h4, -, -, h5, h6, h7⟩ := h3 part hp
      exact ⟨⟨h4, h6, h5⟩, h7⟩
  rw [stdlibModules, first, List.mem_append, List.mem_map, List.mem_flatMap]
  refine or_congr ⟨fun ⟨n, h, e⟩ => ⟨n, h, e.symm⟩, fun ⟨n, h, e⟩ => ⟨n, h, e.symm⟩⟩ ?_
  constructor
  · rintro ⟨files, hf, h⟩
    rw [List.mem_filter, modulesOfFiles, List.mem_map] at h
    obtain ⟨⟨f, hm, he⟩, hv⟩ := h
    rw [List.mem_filter] at hm
    exact ⟨files, hf, f, hm.1, hm.2, he, valid.1 hv⟩
  · rintro ⟨files, hf, f, hm, hs, he, hv⟩
    refine ⟨files, hf, ?_⟩
    rw [List.mem_filter, modulesOfFiles, List.mem_map]
    exact ⟨⟨f, List.mem_filter.2 ⟨hm, hs⟩, he⟩, valid.2 hv⟩

example : stdlibModules (fun _ => true) ["sys"] [[⟨["a"], "b.py".toList⟩, ⟨["a", "tests"], "c.py".toList⟩,
    ⟨["a"], "__main__.py".toList⟩, ⟨["a"], "README".toList⟩]] = [["sys"], ["a", "b"]] := by decide
example : (stubsCache [⟨["a"], "b.pyi".toList⟩, ⟨["a"], "b.py".toList⟩]).lookup ["a", "b"]
    = some ⟨["a"], "b.pyi".toList⟩ := by decide
example : isPackagePath [] (fun _ => some "__init__.py".toList) ["a"] = true := by decide

example : moduleOfFile ⟨["a"], "b.py".toList⟩ = ["a", "b"] := by decide
example : moduleOfFile ⟨["a", "b"], "__init__.py".toList⟩ = ["a", "b"] := by decide
example : isStubFile ⟨["a"], "b.pyi".toList⟩ = true ∧ moduleOfStub ⟨["a"], "b.pyi".toList⟩ = ["a", "b"] := by
  decide
example : isPackagePath (stubsCache [⟨["a"], "__init__.pyi".toList⟩]) (fun _ => none) ["a"] = true := by
  decide

/-! ### C58 -/

/-- **C58**: a standard module is supported exactly if it is neither one of the listed ones nor below
one of them (nor, on PyPy, an internal one). -/
theorem C58_supported (e : Platform) (stdlib : List Path) (m : Path) :
    m ∈ supportedModules e stdlib ↔ m ∈ stdlib
      ∧ (∀ names ∈ unsupportedNames e, ∀ name ∈ names, ¬ pathFromString name <+: m)
      ∧ (e.pypy = true → pypyInternal m = false) := by
  rw [supportedModules, List.mem_filter]
  constructor
  · rintro ⟨hm, hn⟩
    have hn : m ∉ unsupportedModules e stdlib := by simpa using hn
    rw [mem_unsupported] at hn
    refine ⟨hm, fun names h1 name h2 h3 => hn (.inr ⟨names, h1, name, h2, .inr ⟨hm, h3⟩⟩), fun hp => ?_⟩
    cases hi : pypyInternal m
    · rfl
    · exact absurd (.inl ⟨hp, hm, hi⟩) hn
  · rintro ⟨hm, hn, hp⟩
    refine ⟨hm, ?_⟩
    have : m ∉ unsupportedModules e stdlib := by
      rw [mem_unsupported]
      rintro (⟨h1, -, h2⟩ | ⟨names, h1, name, h2, h3⟩)
      · rw [hp h1] at h2; cases h2
      · refine hn names h1 name h2 ?_
        rcases h3 with rfl | ⟨-, h3⟩
        · exact List.prefix_refl _
        · exact h3
    simpa using this

/-- **C58**: no supported module is unsupported or below an unsupported one. -/
theorem C58_none_below (e : Platform) (stdlib : List Path) (m u : Path)
    (hm : m ∈ supportedModules e stdlib) (hu : u ∈ unsupportedModules e stdlib) : ¬ u <+: m := by
  intro h
  obtain ⟨hs, hn, hp⟩ := (C58_supported e stdlib m).1 hm
  rcases mem_unsupported.1 hu with ⟨h1, -, h2⟩ | ⟨names, h1, name, h2, h3⟩
  · have := pypyInternal_below h h2
    rw [hp h1] at this
    cases this
  · refine hn names h1 name h2 ?_
    rcases h3 with rfl | ⟨-, h3⟩
    · exact h
    · exact h3.trans h

/-- Modules that need Windows. -/
def windowsOnly : List String :=
  ["asyncio.windows_events", "asyncio.windows_utils", "encodings.mbcs", "encodings.oem",
   "distutils.msvc9compiler", "multiprocessing.popen_spawn_win32"]

/-- Modules that need something other than Windows. -/
def posixOnly : List String :=
  ["asyncio.unix_events", "curses", "dbm.gnu", "dbm.ndbm", "multiprocessing.popen_fork",
   "multiprocessing.popen_forkserver", "multiprocessing.popen_spawn_posix", "pty", "tty"]

/-- **C58**: nowhere is a module supported that needs another system, nor one below it, nor the ones
that open windows or print poems. -/
theorem C58_platform (e : Platform) (stdlib : List Path) (m : Path)
    (hm : m ∈ supportedModules e stdlib) (name : String)
    (hn : name ∈ ["antigravity", "idlelib", "this", "tkinter", "turtle", "turtledemo"] ∨
      (e.win32 = false ∧ name ∈ windowsOnly) ∨ (e.win32 = true ∧ name ∈ posixOnly)) :
    ¬ pathFromString name <+: m := by
  obtain ⟨-, h, -⟩ := (C58_supported e stdlib m).1 hm
  have key : ∃ names ∈ unsupportedNames e, name ∈ names := by
    obtain ⟨pypy, win32, darwin, minor⟩ := e
    rcases hn with hn | ⟨hw, hn⟩ | ⟨hw, hn⟩
    · exact ⟨_, List.mem_append_left _ (List.mem_singleton.2 rfl), by revert name; simp⟩
    · cases hw
      cases pypy
      · refine ⟨["asyncio.windows_events", "asyncio.windows_utils", "ctypes.wintypes",
          "distutils.msvc9compiler", "encodings.mbcs", "encodings.oem",
          "multiprocessing.popen_spawn_win32"], by simp [unsupportedNames], ?_⟩
        simp only [windowsOnly] at hn
        simp only [List.mem_cons, List.not_mem_nil, or_false] at hn ⊢
        grind
      · refine ⟨["_overlapped", "_tkinter", "_winapi", "asyncio.windows_events",
          "asyncio.windows_utils",
          "cffi._pycparser._build_tables", "distutils._msvccompiler",
          "distutils.command.bdist_wininst", "distutils.command.bdist_msi",
          "distutils.msvc9compiler", "distutils.sysconfig_cpython", "distutils.sysconfig_pypy",
          "encodings.mbcs", "encodings.oem", "msvcrt", "multiprocessing.popen_spawn_win32",
          "pyrepl.keymaps", "pyrepl.pygame_console", "pyrepl.pygame_keymap"],
          by simp [unsupportedNames], ?_⟩
        simp only [windowsOnly] at hn
        simp only [List.mem_cons, List.not_mem_nil, or_false] at hn ⊢
        grind
    · cases hw
      cases pypy
      · by_cases hc : name ∈ ["curses", "pty", "tty"]
        · exact ⟨_, by simp [unsupportedNames], hc⟩
        · refine ⟨["asyncio.unix_events", "dbm.gnu", "dbm.ndbm", "multiprocessing.popen_fork",
            "multiprocessing.popen_forkserver", "multiprocessing.popen_spawn_posix"],
            by simp [unsupportedNames], ?_⟩
          simp only [posixOnly] at hn
          simp only [List.mem_cons, List.not_mem_nil, or_false] at hn hc ⊢
          grind
      · refine ⟨["_curses", "_curses_panel", "_dbm", "_gdbm", "_posixshmem", "_resource_build",
          "_sqlite3_build", "_sysconfigdata", "_tkinter", "asyncio.unix_events",
          "cffi._pycparser._build_tables", "ctypes_support", "curses", "dbm.gnu", "dbm.ndbm",
          "distutils.command.bdist_msi", "distutils.command.bdist_wininst",
          "distutils.sysconfig_cpython", "distutils.sysconfig_pypy", "grp",
          "multiprocessing.popen_fork", "multiprocessing.popen_forkserver",
          "multiprocessing.popen_spawn_posix", "pty", "pyrepl._minimal_curses", "pyrepl.curses",
          "pyrepl.fancy_termios", "pyrepl.keymaps", "pyrepl.pygame_console", "pyrepl.pygame_keymap",
          "pyrepl.readline", "pyrepl.simple_interact", "pyrepl.unix_console",
          "pyrepl.unix_eventqueue", "readline", "resource", "syslog", "tty"],
          by simp [unsupportedNames], ?_⟩
        simp only [posixOnly] at hn
        simp only [List.mem_cons, List.not_mem_nil, or_false] at hn ⊢
        grind
  obtain ⟨names, h1, h2⟩ := key
  exact h names h1 name h2

example : (["os"] : Path) ∈ supportedModules ⟨false, false, false, 11⟩ [["os"], ["encodings", "mbcs"]] ∧
    "encodings.mbcs" ∈ windowsOnly := by decide

/-- On CPython 3.11 and Linux. -/
example : supportedModules ⟨false, false, false, 11⟩
    [["os"], ["tkinter"], ["tkinter", "ttk"], ["lib2to3", "pgen2"], ["lib2to3", "pgen2", "conv"],
     ["thistle"]] = [["os"], ["lib2to3", "pgen2"], ["thistle"]] := by decide

end Paradigm.Props
