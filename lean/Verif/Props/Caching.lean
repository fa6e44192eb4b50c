import Verif.Lemmas.Caching
import Verif.Lemmas.CacheName
import Verif.Lemmas.Limits

/-!
# C52, C53, C54: the cache
-/

namespace Paradigm.Props

open Spec

/-- A sample of what is computed: one table that holds the version. -/
def sampleCompute : Compute := fun version =>
  [(['t'], .list [.str version]), (['u', '_'], .tuple [.str ['a']])]

theorem sampleCompute_tables (version : Text) : IsTables (sampleCompute version) where
  names := by
    unfold sampleCompute IsFieldName
    simp only [List.forall_mem_cons, List.not_mem_nil, false_implies, implies_true, and_true]
    decide
  distinct := by unfold sampleCompute; simp
  noVersion := by unfold sampleCompute versionName; simp
  proper := by
    unfold sampleCompute
    simp only [List.forall_mem_cons, List.not_mem_nil, false_implies, implies_true, and_true]
    exact ⟨.list (by simp [Proper.str]), .tuple (by simp [Proper.str])⟩

/-! ### C52 -/

/-- **C52**: whatever prefix of the file was written, loading it fails or gives all the saved values;
the latter only when nothing but the last line end is missing. -/
theorem C52_cut (printable : Char → Bool) (harmless : Text → Bool) (version : Text) (tables : Fields)
    (ht : IsTables tables) (text : Text)
    (h : text <+: saveText printable (tables ++ [(versionName, .str version)])) :
    load harmless (tables.map Prod.fst ++ [versionName]) (some text) = none
    ∨ (∃ values, load harmless (tables.map Prod.fst ++ [versionName]) (some text) = some values
        ∧ Rel2 Equal (tables.map Prod.snd ++ [.str version]) values)
      ∧ (saveText printable (tables ++ [(versionName, .str version)])).length ≤ text.length + 1 := by
  have hk' := List.prefix_iff_eq_take.1 h
  rcases load_take (printable := printable) (harmless := harmless) (version := version) ht
    (tables.map Prod.fst) text.length with h' | ⟨b, h', hb, hl⟩
  · rw [← hk'] at h'
    exact .inl h'
  · rw [← hk', attributes_saved ht hb] at h'
    refine .inr ⟨⟨_, h', ?_⟩, hl⟩
    have := hb.values
    clear h' hb
    revert this
    generalize tables.map Prod.snd = xs
    generalize b.map Prod.snd = ys
    intro this
    induction this with
    | nil => exact .cons .str .nil
    | cons h1 _ ih => exact .cons h1 ih

/-- The complete file is loaded when its values are within the limits of CPython's tokenizer. -/
theorem C52_full (printable : Char → Bool) (harmless : Text → Bool) (version : Text) (tables : Fields)
    (ht : IsTables tables) (hl : ∀ f ∈ tables, bracketsOf f.2 ≤ 200 ∧ ShortNumbers f.2) :
    ∃ values, load harmless (tables.map Prod.fst ++ [versionName])
        (some (saveText printable (tables ++ [(versionName, .str version)]))) = some values
      ∧ Rel2 Equal (tables.map Prod.snd ++ [.str version]) values := by
  rcases C52_cut printable harmless version tables ht _ (List.prefix_refl _) with h | h
  · exfalso
    rw [load, if_pos ((withinLimits_saveText printable (by
      intro f hf
      rcases List.mem_append.1 hf with hf | hf
      · exact ht.names f hf
      · simp only [List.mem_singleton] at hf
        subst hf
        exact isName_version)).2 (by
      intro f hf
      rcases List.mem_append.1 hf with hf | hf
      · exact hl f hf
      · simp only [List.mem_singleton] at hf
        subst hf
        exact ⟨Nat.zero_le _, .str⟩))] at h
    obtain ⟨b, h1, h2⟩ := runModule_full (printable := printable) (harmless := harmless)
      (fields := tables ++ [(versionName, .str version)]) (by
        intro f hf
        rcases List.mem_append.1 hf with hf | hf
        · exact ht.names f hf
        · simp only [List.mem_singleton] at hf
          subst hf
          exact isName_version) (by
        intro f hf
        rcases List.mem_append.1 hf with hf | hf
        · exact ht.proper f hf
        · simp only [List.mem_singleton] at hf
          subst hf
          exact .str) (Nat.le_refl _)
    rw [h1] at h
    have hn := h2.names
    rw [List.map_append] at hn
    have := attributes_mem (all := b) (fields := b) (by
      rw [← hn]
      refine List.nodup_append.2 ⟨ht.distinct, by simp, ?_⟩
      intro a ha c hc e
      simp only [List.map_cons, List.map_nil, List.mem_singleton] at hc
      rw [e, hc] at ha
      exact ht.noVersion ha) (fun _ h => h)
    rw [← hn] at this
    simp only [List.map_cons, List.map_nil] at this
    simp only at h
    rw [this] at h
    cases h
  · exact h.1

/-- A file cut within its second line loads nothing; with its last line end missing it loads. -/
example : load (fun _ => true) [['t'], ['u', '_'], versionName]
    (some ((saveText (fun _ => true) (sampleCompute ['1'] ++ [(versionName, .str ['1'])])).take 24))
      = none := rfl
example : load (fun _ => true) [['t'], ['u', '_'], versionName]
    (some ((saveText (fun _ => true) (sampleCompute ['1'] ++ [(versionName, .str ['1'])])).dropLast))
      = some [.list [.str ['1']], .tuple [.str ['a']], .str ['1']] := rfl

/-! ### C53 -/

/-- **C53**: after any starts of any versions, with any ends of saving, the tables in use are those
that the running version computes. -/
def C53_statement : Prop :=
  ∀ (printable : Char → Bool) (harmless : Text → Bool) (compute : Compute),
    (∀ version, IsTables (compute version)) → ∀ (starts : List Start) (s : Start),
      Rel2 Equal ((compute s.version).map Prod.snd)
        (startUp printable harmless compute s.main s.version s.stop
          (fileAfter printable harmless compute starts none)).1

/-- A process that is not the main one uses empty tables when there is no usable cache. -/
theorem C53_refuted : ¬ C53_statement := by
  intro h
  have := h (fun _ => true) (fun _ => false) sampleCompute sampleCompute_tables []
    ⟨false, ['1'], .unopened⟩
  have e : (startUp (fun _ => true) (fun _ => false) sampleCompute false ['1'] .unopened
      (fileAfter (fun _ => true) (fun _ => false) sampleCompute [] none)).1
      = [.dict [], .dict []] := rfl
  simp only [e, sampleCompute, List.map_cons, List.map_nil] at this
  cases this with
  | cons h1 h2 => cases h1

/-- **C53** for the main process. Missing: other processes, see `C53_child_partial`. -/
theorem C53_main_partial (printable : Char → Bool) (harmless : Text → Bool) (compute : Compute)
    (hc : ∀ version, IsTables (compute version)) (starts : List Start) (version : Text) (stop : SaveEnd) :
    Rel2 Equal ((compute version).map Prod.snd)
      (startUp printable harmless compute true version stop
        (fileAfter printable harmless compute starts none)).1 := by
  have hw := written_fileAfter (harmless := harmless) (starts := starts)
    (.inl rfl : WrittenBefore printable compute none)
  unfold startUp
  cases e : cachedTables harmless ((compute version).map Prod.fst) version
      (fileAfter printable harmless compute starts none) with
  | none => exact .refl fun v _ => equal_refl v
  | some tables => exact cachedTables_written hc hw e

/-- In other processes the tables are those of the running version or all of them are empty; never
those of another version or a mixture. -/
theorem C53_child_partial (printable : Char → Bool) (harmless : Text → Bool) (compute : Compute)
    (hc : ∀ version, IsTables (compute version)) (starts : List Start) (version : Text) (stop : SaveEnd) :
    Rel2 Equal ((compute version).map Prod.snd)
      (startUp printable harmless compute false version stop
        (fileAfter printable harmless compute starts none)).1
    ∨ (startUp printable harmless compute false version stop
        (fileAfter printable harmless compute starts none)).1
      = (compute version).map fun _ => .dict [] := by
  have hw := written_fileAfter (harmless := harmless) (starts := starts)
    (.inl rfl : WrittenBefore printable compute none)
  unfold startUp
  cases e : cachedTables harmless ((compute version).map Prod.fst) version
      (fileAfter printable harmless compute starts none) with
  | none => exact .inr rfl
  | some tables => exact .inl (cachedTables_written hc hw e)

/-- After the main process of some version saved everything, every process of that version uses these
tables and leaves the file alone, when they are within the limits of CPython's tokenizer. -/
theorem C53_settled (printable : Char → Bool) (harmless : Text → Bool) (compute : Compute)
    (hc : ∀ version, IsTables (compute version)) (version : Text)
    (hl : ∀ f ∈ compute version, bracketsOf f.2 ≤ 200 ∧ ShortNumbers f.2) (main : Bool) (stop : SaveEnd) :
    Rel2 Equal ((compute version).map Prod.snd)
      (startUp printable harmless compute main version stop
        (some (saveText printable (compute version ++ [(versionName, .str version)])))).1
    ∧ (startUp printable harmless compute main version stop
        (some (saveText printable (compute version ++ [(versionName, .str version)])))).2
      = some (saveText printable (compute version ++ [(versionName, .str version)])) := by
  obtain ⟨values, h1, h2⟩ := C52_full printable harmless version (compute version) (hc version) hl
  have hl : values.getLast? = some (.str version) ∧
      Rel2 Equal ((compute version).map Prod.snd) values.dropLast := by
    clear h1
    revert h2
    generalize (compute version).map Prod.snd = xs
    intro h2
    induction xs generalizing values with
    | nil =>
      cases h2 with
      | cons h3 h4 => cases h3; cases h4; exact ⟨rfl, .nil⟩
    | cons x xs ih =>
      cases h2 with
      | cons h3 h4 =>
        rename_i y ys
        obtain ⟨h5, h6⟩ := ih ys h4
        refine ⟨by rw [List.getLast?_cons, h5]; rfl, ?_⟩
        rw [List.dropLast_cons_of_ne_nil (by rintro rfl; cases h5)]
        exact .cons h3 h6
  have e : cachedTables harmless ((compute version).map Prod.fst) version
      (some (saveText printable (compute version ++ [(versionName, .str version)])))
      = some values.dropLast := by
    unfold cachedTables
    rw [h1]
    simp only [hl.1]
    rw [if_pos (by simp [isVersion])]
  unfold startUp
  rw [e]
  exact ⟨hl.2, rfl⟩

/-- The hypotheses of `C53_settled` hold for the sample. -/
example (version : Text) : (startUp (fun _ => true) (fun _ => false) sampleCompute false version .unopened
      (some (saveText (fun _ => true) (sampleCompute version ++ [(versionName, .str version)])))).2
    = some (saveText (fun _ => true) (sampleCompute version ++ [(versionName, .str version)])) :=
  (C53_settled _ _ _ sampleCompute_tables version (by
    unfold sampleCompute
    simp only [List.forall_mem_cons, List.not_mem_nil, false_implies, implies_true, and_true]
    exact ⟨⟨by simp [bracketsOf, bracketsIn], .list (by simp [ShortNumbers.str])⟩,
      ⟨by simp [bracketsOf, bracketsIn], .tuple (by simp [ShortNumbers.str])⟩⟩) false .unopened).2

/-- After an interrupted save and a start of another version the main process rebuilds. -/
example : (startUp (fun _ => true) (fun _ => false) sampleCompute true ['2'] .unopened
    (fileAfter (fun _ => true) (fun _ => false) sampleCompute
      [⟨true, ['2'], .written 20⟩, ⟨true, ['1'], .written 1000⟩] none)).1
      = [.list [.str ['2']], .tuple [.str ['a']]] := rfl
example : (fileAfter (fun _ => true) (fun _ => false) sampleCompute
      [⟨true, ['2'], .written 20⟩, ⟨true, ['1'], .written 1000⟩] none)
    = some (saveText (fun _ => true) (sampleCompute ['1'] ++ [(versionName, .str ['1'])])) := rfl

/-! ### C54 -/

/-- **C54**: different environments use different cache files. -/
def C54_statement : Prop :=
  ∀ (file : Text) (e f : Environment), cacheName file e = cacheName file f → e = f

/-- Underscores within the components can be confused. -/
theorem C54_refuted : ¬ C54_statement := by
  intro h
  have := h [] ⟨['1', '.', '0'], ['l'], ['c'], 3, 11, 0, ['f'], 0⟩
    ⟨['1'], ['0', '_', 'l'], ['c'], 3, 11, 0, ['f'], 0⟩ (by decide)
  cases this

/-- **C54** when the components have no underscores, as with `linux`, `darwin`, `win32`, `cpython`,
`pypy`, `final`. Missing: components with underscores. -/
theorem C54_injective_partial (file : Text) (hf : '_' ∉ file) (e f : Environment)
    (he : '_' ∉ e.mypyVersion ∧ '_' ∉ e.platform ∧ '_' ∉ e.implementation ∧ '_' ∉ e.level)
    (hf' : '_' ∉ f.mypyVersion ∧ '_' ∉ f.platform ∧ '_' ∉ f.implementation ∧ '_' ∉ f.level)
    (h : cacheName file e = cacheName file f) : e = f := by
  obtain ⟨ps, p1, p2, p3, p4⟩ := dots_split _ he.1
  obtain ⟨qs, q1, q2, q3, q4⟩ := dots_split _ hf'.1
  rw [cacheName_eq, cacheName_eq, p4, q4, ← intercalate_append _ _ p1 (by simp [nameParts]),
    ← intercalate_append _ _ q1 (by simp [nameParts])] at h
  have h := List.append_cancel_left h
  have h := join_underscore (by simp [nameParts]) (by simp [nameParts]) (by
    intro x hx
    rcases List.mem_append.1 hx with hx | hx
    · exact p2 x hx
    · simp only [nameParts, List.mem_cons, List.not_mem_nil, or_false] at hx
      rcases hx with rfl | rfl | rfl | rfl | rfl | rfl | rfl | rfl
      · exact he.2.1
      · exact he.2.2.1
      · exact underscore_notMem_toDigits _
      · exact underscore_notMem_toDigits _
      · exact underscore_notMem_toDigits _
      · exact he.2.2.2
      · exact underscore_notMem_toDigits _
      · exact hf) (by
    intro x hx
    rcases List.mem_append.1 hx with hx | hx
    · exact q2 x hx
    · simp only [nameParts, List.mem_cons, List.not_mem_nil, or_false] at hx
      rcases hx with rfl | rfl | rfl | rfl | rfl | rfl | rfl | rfl
      · exact hf'.2.1
      · exact hf'.2.2.1
      · exact underscore_notMem_toDigits _
      · exact underscore_notMem_toDigits _
      · exact underscore_notMem_toDigits _
      · exact hf'.2.2.2
      · exact underscore_notMem_toDigits _
      · exact hf) h
  obtain ⟨h1, h2⟩ := List.append_inj' h rfl
  simp only [nameParts, List.cons.injEq, and_true] at h2
  obtain ⟨h3, h4, h5, h6, h7, h8, h9⟩ := h2
  cases e
  cases f
  simp only at *
  rw [p3, q3, h1, h3, h4, toDigits_injective h5, toDigits_injective h6,
    toDigits_injective h7, h8, toDigits_injective h9]

/-- Two environments that differ in the last component only. -/
example : cacheName ['s'] ⟨['1', '.', '0'], ['l'], ['c'], 3, 11, 0, ['f'], 0⟩
    ≠ cacheName ['s'] ⟨['1', '.', '0'], ['l'], ['c'], 3, 11, 0, ['f'], 1⟩ := fun h => by
  have := C54_injective_partial _ (by decide) _ _ (by decide) (by decide) h
  cases this

/-- The caches of `stubs.py` and of `modules.py` are different files. -/
theorem C54_modules (e f : Environment)
    (h : cacheName ['s', 't', 'u', 'b', 's', '.', 'p', 'y'] e
      = cacheName ['m', 'o', 'd', 'u', 'l', 'e', 's', '.', 'p', 'y'] f) : False := by
  obtain ⟨a, ha⟩ := cacheName_suffix ['s', 't', 'u', 'b', 's', '.', 'p', 'y'] e
  obtain ⟨b, hb⟩ := cacheName_suffix ['m', 'o', 'd', 'u', 'l', 'e', 's', '.', 'p', 'y'] f
  rw [ha, hb] at h
  have := congrArg (fun t => t.reverse[4]?) h
  simp at this

end Paradigm.Props
