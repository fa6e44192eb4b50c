import Verif.Lemmas.Imports
import Verif.Lemmas.Resolving
import Verif.Model.Sources

/-!
# Lemmas about names of files and unsupported modules
-/

namespace Paradigm

open Spec

theorem suffix_append_cases {s stem t : List Char} (h : s <:+ stem ++ t) :
    s <:+ t ∨ ∃ x, s = x ++ t ∧ x <:+ stem := by
  have ht : t <:+ stem ++ t := List.suffix_append stem t
  by_cases hl : s.length ≤ t.length
  · exact .inl (List.suffix_of_suffix_length_le h ht hl)
  · right
    obtain ⟨x, rfl⟩ := List.suffix_of_suffix_length_le ht h (by omega)
    refine ⟨x, rfl, ?_⟩
    obtain ⟨y, hy⟩ := h
    rw [← List.append_assoc] at hy
    exact ⟨y, List.append_cancel_right hy⟩

/-- A suffix with another dot before `t` is none of `stem ++ t`. -/
theorem not_suffix {s stem t : List Char} (hs : '.' ∉ stem) (h1 : ¬ s <:+ t)
    (h2 : ∀ x, s = x ++ t → '.' ∈ x) : s.isSuffixOf (stem ++ t) = false := by
  rw [Bool.eq_false_iff]
  intro h
  rw [List.isSuffixOf_iff_suffix] at h
  rcases suffix_append_cases h with h | ⟨x, hx, hxs⟩
  · exact h1 h
  · exact hs (hxs.subset (h2 x hx))

theorem dot_mem_head {s x t : List Char} (h : s = x ++ t) (hl : t.length < s.length)
    (hd : s.head? = some '.') : '.' ∈ x := by
  cases x with
  | nil => rw [h] at hl; simp at hl
  | cons c x =>
    rw [h] at hd
    simp only [List.cons_append, List.head?_cons, Option.some.injEq] at hd
    rw [hd]
    exact List.mem_cons_self

theorem getModuleName_source {stem suffix : List Char} (hs : '.' ∉ stem)
    (h : suffix ∈ sourceSuffixes) : getModuleName (stem ++ suffix) = some stem := by
  have self : suffix.isSuffixOf (stem ++ suffix) = true := by
    rw [List.isSuffixOf_iff_suffix]; exact List.suffix_append stem suffix
  have no : ∀ s : List Char, ¬ s <:+ suffix → s.head? = some '.' →
      s.isSuffixOf (stem ++ suffix) = false := by
    intro s h1 h2
    by_cases hl : suffix.length < s.length
    · exact not_suffix hs h1 fun x hx => dot_mem_head hx hl h2
    · rw [Bool.eq_false_iff]
      intro h
      rw [List.isSuffixOf_iff_suffix] at h
      exact h1 (List.suffix_of_suffix_length_le h (List.suffix_append stem suffix) (by omega))
  have found : moduleSuffixes.find? (·.isSuffixOf (stem ++ suffix)) = some suffix := by
    unfold sourceSuffixes at h
    simp only [List.mem_cons, List.not_mem_nil, or_false] at h
    unfold moduleSuffixes
    rcases h with rfl | rfl | rfl | rfl
    · rw [List.find?_cons, no _ (by decide) (by decide)]; simp only
      rw [List.find?_cons, no _ (by decide) (by decide)]; simp only
      rw [List.find?_cons, no _ (by decide) (by decide)]; simp only
      rw [List.find?_cons, self]
    · rw [List.find?_cons, self]
    · rw [List.find?_cons, no _ (by decide) (by decide)]; simp only
      rw [List.find?_cons, self]
    · rw [List.find?_cons, no _ (by decide) (by decide)]; simp only
      rw [List.find?_cons, no _ (by decide) (by decide)]; simp only
      rw [List.find?_cons, no _ (by decide) (by decide)]; simp only
      rw [List.find?_cons, no _ (by decide) (by decide)]; simp only
      rw [List.find?_cons, self]
  rw [getModuleName, found]
  simp

theorem getModuleName_py (stem : List Char) : getModuleName (stem ++ ".py".toList) = some stem := by
  have no : ∀ s : List Char, s.getLast? ≠ some 'y' → s ≠ [] →
      s.isSuffixOf (stem ++ ".py".toList) = false := by
    intro s hs hne
    rw [Bool.eq_false_iff]
    intro h
    rw [List.isSuffixOf_iff_suffix] at h
    obtain ⟨t, ht⟩ := h
    have := congrArg List.getLast? ht
    rw [List.getLast?_append, List.getLast?_append] at this
    cases hg : s.getLast? with
    | none => exact hne (List.getLast?_eq_none_iff.1 hg)
    | some c =>
      rw [hg] at this hs
      have : some c = some 'y' := this
      exact hs this
  have self : ".py".toList.isSuffixOf (stem ++ ".py".toList) = true := by
    rw [List.isSuffixOf_iff_suffix]; exact List.suffix_append stem _
  unfold getModuleName moduleSuffixes
  rw [List.find?_cons, no _ (by decide) (by decide)]
  simp only
  rw [List.find?_cons, no _ (by decide) (by decide)]
  simp only
  rw [List.find?_cons, no _ (by decide) (by decide)]
  simp only
  rw [List.find?_cons, self]
  simp

theorem splitSuffix_pyi {stem : List Char} (h : stem ≠ []) :
    splitSuffix (stem ++ ".pyi".toList) = (stem, ".pyi".toList) := by
  have hr : (stem ++ ".pyi".toList).reverse = 'i' :: 'y' :: 'p' :: '.' :: stem.reverse := by
    rw [List.reverse_append]; rfl
  unfold splitSuffix
  rw [hr]
  have h1 : ('i' :: 'y' :: 'p' :: '.' :: stem.reverse).takeWhile (· != '.') = ['i', 'y', 'p'] := by
    simp [List.takeWhile]
  have h2 : ('i' :: 'y' :: 'p' :: '.' :: stem.reverse).dropWhile (· != '.') = '.' :: stem.reverse := by
    simp [List.dropWhile]
  rw [h1, h2]
  cases hs : stem.reverse with
  | nil => exact absurd (by simpa using hs) h
  | cons c cs =>
    have : (c :: cs).reverse = stem := by rw [← hs, List.reverse_reverse]
    simp only [this]
    rfl

theorem withSuffix_pyi {stem : List Char} (h : stem ≠ []) :
    withSuffix (stem ++ ".pyi".toList) ".py".toList = stem ++ ".py".toList := by
  unfold withSuffix
  rw [splitSuffix_pyi h]
  rfl

theorem stub_name {name : List Char} (h : suffixes name = [".pyi".toList]) :
    ∃ stem, stem ≠ [] ∧ name = stem ++ ".pyi".toList := by
  unfold suffixes at h
  split at h
  · cases h
  · cases hd : splitDots (name.dropWhile (· == '.')) with
    | nil => rw [hd] at h; cases h
    | cons p ps =>
      rw [hd] at h
      simp only [List.drop_succ_cons, List.drop_zero] at h
      obtain ⟨q, rfl⟩ : ∃ q, ps = [q] := by
        cases ps with
        | nil => cases h
        | cons q ps =>
          cases ps with
          | nil => exact ⟨q, rfl⟩
          | cons _ _ => simp at h
      have hq : q = "pyi".toList := by
        have h3 : ('.' :: q) = '.' :: "pyi".toList := (List.cons.inj h).1
        exact (List.cons.inj h3).2
      have hj := join_splitDots (name.dropWhile (· == '.'))
      rw [hd, hq] at hj
      have hj : p ++ ".pyi".toList = name.dropWhile (· == '.') := by
        rw [← hj]; simp [List.intercalate]
      refine ⟨name.takeWhile (· == '.') ++ p, ?_, ?_⟩
      · intro e
        have hp : p = [] := (List.append_eq_nil_iff.1 e).2
        rw [hp] at hj
        have := List.head?_dropWhile_not (· == '.') name
        rw [← hj] at this
        simp at this
      · rw [List.append_assoc, hj, List.takeWhile_append_dropWhile]

/-! ### Unsupported modules -/

theorem take_eq_prefix {p m : Path} : m.take p.length = p ↔ p <+: m := by
  constructor
  · intro h; exact h ▸ List.take_prefix _ _
  · rintro ⟨t, rfl⟩; simp

theorem mem_updateRecursively {stdlib set : List Path} {names : List String} {m : Path} :
    m ∈ updateRecursively stdlib set names ↔ m ∈ set
      ∨ ∃ name ∈ names, m = pathFromString name ∨ (m ∈ stdlib ∧ pathFromString name <+: m) := by
  unfold updateRecursively
  simp only [List.mem_append, List.mem_map, List.mem_filter, List.any_eq_true, beq_iff_eq]
  constructor
  · rintro ((h | ⟨name, h1, rfl⟩) | ⟨h, p, ⟨name, h1, rfl⟩, h2⟩)
    · exact .inl h
    · exact .inr ⟨name, h1, .inl rfl⟩
    · exact .inr ⟨name, h1, .inr ⟨h, take_eq_prefix.1 h2⟩⟩
  · rintro (h | ⟨name, h1, rfl | ⟨h2, h3⟩⟩)
    · exact .inl (.inl h)
    · exact .inl (.inr ⟨name, h1, rfl⟩)
    · exact .inr ⟨h2, _, ⟨name, h1, rfl⟩, take_eq_prefix.2 h3⟩

theorem mem_foldl_update {stdlib : List Path} {m : Path} : ∀ {lists : List (List String)}
    {set : List Path}, m ∈ lists.foldl (updateRecursively stdlib) set ↔ m ∈ set
      ∨ ∃ names ∈ lists, ∃ name ∈ names, m = pathFromString name
        ∨ (m ∈ stdlib ∧ pathFromString name <+: m)
  | [], set => by simp
  | names :: lists, set => by
    rw [List.foldl_cons, mem_foldl_update, mem_updateRecursively]
    constructor
    · rintro ((h | h) | ⟨names', h1, h⟩)
      · exact .inl h
      · exact .inr ⟨names, List.mem_cons_self, h⟩
      · exact .inr ⟨names', List.mem_cons_of_mem _ h1, h⟩
    · rintro (h | ⟨names', h1, h⟩)
      · exact .inl (.inl h)
      · rcases List.mem_cons.1 h1 with rfl | h1
        · exact .inl (.inr h)
        · exact .inr ⟨names', h1, h⟩

theorem mem_unsupported {e : Platform} {stdlib : List Path} {m : Path} :
    m ∈ unsupportedModules e stdlib ↔ (e.pypy = true ∧ m ∈ stdlib ∧ pypyInternal m = true)
      ∨ ∃ names ∈ unsupportedNames e, ∃ name ∈ names, m = pathFromString name
        ∨ (m ∈ stdlib ∧ pathFromString name <+: m) := by
  rw [unsupportedModules, mem_foldl_update]
  cases e.pypy <;> simp

theorem pypyInternal_below {u m : Path} (h : u <+: m) (hu : pypyInternal u = true) :
    pypyInternal m = true := by
  obtain ⟨t, rfl⟩ := h
  unfold pypyInternal at hu ⊢
  rw [Bool.or_eq_true] at hu ⊢
  rcases hu with hu | hu
  · cases u with
    | nil => cases hu
    | cons head rest => exact .inl hu
  · right
    rw [List.contains_iff_mem] at hu ⊢
    exact List.mem_append_left _ hu

end Paradigm
