import Verif.Spec.FileSystem

/-!
# Lemmas about listing files
-/

namespace Paradigm

open Spec

mutual

theorem walkTree_sound (root parents : Path) (files : List String) (name : String) : ∀ e : Entry,
    (parents, files) ∈ walkTree root e → name ∈ files → ∃ rest, parents = root ++ rest ∧ FileAt e rest name
  | .file, h, _ => by rw [walkTree] at h; cases h
  | .directory linked readable entries, h, hn => by
    rw [walkTree] at h
    split at h
    · rcases List.mem_cons.1 h with h | h
      · cases h
        refine ⟨[], by simp, ?_⟩
        obtain ⟨⟨x, e⟩, he, rfl⟩ := List.mem_map.1 hn
        obtain ⟨he, hd⟩ := List.mem_filter.1 he
        cases e with
        | file => exact he
        | directory => cases hd
      · obtain ⟨part, e, rest, he, rfl, hf⟩ := walkEntries_sound root parents files name entries h hn
        exact ⟨part :: rest, rfl, e, he, hf⟩
    · cases h

theorem walkEntries_sound (root parents : Path) (files : List String) (name : String) :
    ∀ es : List (String × Entry), (parents, files) ∈ walkEntries root es → name ∈ files →
    ∃ part e rest, (part, e) ∈ es ∧ parents = root ++ part :: rest ∧ FileAt e rest name
  | [], h, _ => by rw [walkEntries] at h; cases h
  | (part, e) :: es, h, hn => by
    rw [walkEntries] at h
    split at h
    · rcases List.mem_append.1 h with h | h
      · obtain ⟨rest, rfl, hf⟩ := walkTree_sound (root ++ [part]) parents files name e h hn
        exact ⟨part, e, rest, List.mem_cons_self, by simp, hf⟩
      · obtain ⟨part', e', rest, he, hp, hf⟩ := walkEntries_sound root parents files name es h hn
        exact ⟨part', e', rest, List.mem_cons_of_mem _ he, hp, hf⟩
    · obtain ⟨part', e', rest, he, hp, hf⟩ := walkEntries_sound root parents files name es h hn
      exact ⟨part', e', rest, List.mem_cons_of_mem _ he, hp, hf⟩

end

theorem mem_walkEntries {root : Path} {part : String} {e : Entry} (hd : e.isEntered = true)
    {x : Path × List String} (hx : x ∈ walkTree (root ++ [part]) e) : ∀ es : List (String × Entry),
    (part, e) ∈ es → x ∈ walkEntries root es
  | (part', e') :: es, h => by
    rw [walkEntries]
    rcases List.mem_cons.1 h with h | h
    · cases h
      rw [if_pos hd]
      exact List.mem_append_left _ hx
    · split
      · exact List.mem_append_right _ (mem_walkEntries hd hx es h)
      · exact mem_walkEntries hd hx es h

theorem listable_of_mem {part : String} {e : Entry} : ∀ {es : List (String × Entry)}, ListableAll es →
    (part, e) ∈ es → (∀ readable below, e ≠ .directory true readable below) ∧ Listable e
  | (part', e') :: es, h, hm => by
    rw [ListableAll] at h
    rcases List.mem_cons.1 hm with hm | hm
    · cases hm
      exact ⟨h.1, h.2.1⟩
    · exact listable_of_mem h.2.2 hm

theorem walkTree_complete (name : String) : ∀ (rest root : Path) (e : Entry), Listable e → FileAt e rest name →
    ∃ files, (root ++ rest, files) ∈ walkTree root e ∧ name ∈ files
  | rest, root, .file, _, h => by cases rest <;> exact h.elim
  | [], root, .directory linked readable entries, hl, h => by
    rw [Listable] at hl
    rw [walkTree, if_pos hl.1, List.append_nil]
    exact ⟨_, List.mem_cons_self, List.mem_map.2 ⟨(name, .file), List.mem_filter.2 ⟨h, rfl⟩, rfl⟩⟩
  | part :: rest, root, .directory linked readable entries, hl, h => by
    rw [Listable] at hl
    rw [walkTree, if_pos hl.1]
    obtain ⟨e, he, hf⟩ := h
    obtain ⟨h1, h2⟩ := listable_of_mem hl.2 he
    have hd : e.isEntered = true := by
      cases e with
      | file => cases rest <;> exact hf.elim
      | directory linked readable below =>
        cases linked
        · rfl
        · exact absurd rfl (h1 readable below)
    obtain ⟨files, hm, hn⟩ := walkTree_complete name rest (root ++ [part]) e h2 hf
    rw [List.append_assoc] at hm
    exact ⟨files, List.mem_cons_of_mem _ (mem_walkEntries hd hm entries he), hn⟩

mutual

theorem walkTree_prefix (root : Path) : ∀ (e : Entry) (x : Path × List String), x ∈ walkTree root e → root <+: x.1
  | .file, x, h => by rw [walkTree] at h; cases h
  | .directory linked readable entries, x, h => by
    rw [walkTree] at h
    split at h
    · rcases List.mem_cons.1 h with rfl | h
      · exact List.prefix_refl _
      · obtain ⟨part, -, hp⟩ := walkEntries_prefix root entries x h
        exact (List.prefix_append _ _).trans hp
    · cases h

theorem walkEntries_prefix (root : Path) : ∀ (es : List (String × Entry)) (x : Path × List String),
    x ∈ walkEntries root es → ∃ part, part ∈ es.map Prod.fst ∧ root ++ [part] <+: x.1
  | [], x, h => by rw [walkEntries] at h; cases h
  | (part, e) :: es, x, h => by
    rw [walkEntries] at h
    split at h
    · rcases List.mem_append.1 h with h | h
      · exact ⟨part, List.mem_cons_self, walkTree_prefix _ e x h⟩
      · obtain ⟨p, hp, hx⟩ := walkEntries_prefix root es x h
        exact ⟨p, List.mem_cons_of_mem _ hp, hx⟩
    · obtain ⟨p, hp, hx⟩ := walkEntries_prefix root es x h
      exact ⟨p, List.mem_cons_of_mem _ hp, hx⟩

end

theorem prefix_part_eq {root x : Path} {a b : String} (ha : root ++ [a] <+: x) (hb : root ++ [b] <+: x) :
    a = b := by
  obtain ⟨s, rfl⟩ := ha
  obtain ⟨t, ht⟩ := hb
  simp only [List.append_assoc, List.append_cancel_left_eq, List.cons_append, List.nil_append,
    List.cons.injEq] at ht
  exact ht.1.symm

mutual

theorem walkTree_nodup (root : Path) : ∀ e : Entry, DistinctEntries e →
    ((walkTree root e).map Prod.fst).Nodup ∧ ∀ x ∈ walkTree root e, x.2.Nodup
  | .file, _ => by rw [walkTree]; simp
  | .directory linked readable entries, h => by
    rw [DistinctEntries] at h
    rw [walkTree]
    split
    · obtain ⟨h1, h2⟩ := walkEntries_nodup root entries h.1 h.2
      refine ⟨?_, fun x hx => ?_⟩
      · rw [List.map_cons, List.nodup_cons]
        refine ⟨fun hm => ?_, h1⟩
        obtain ⟨x, hx, he⟩ := List.mem_map.1 hm
        obtain ⟨part, -, hp⟩ := walkEntries_prefix root entries x hx
        have := hp.length_le
        rw [he] at this
        simp at this
        omega
      · rcases List.mem_cons.1 hx with rfl | hx
        · exact List.Nodup.sublist (List.Sublist.map _ List.filter_sublist) h.1
        · exact h2 x hx
    · simp

theorem walkEntries_nodup (root : Path) : ∀ es : List (String × Entry), (es.map Prod.fst).Nodup →
    DistinctEntriesAll es →
    ((walkEntries root es).map Prod.fst).Nodup ∧ ∀ x ∈ walkEntries root es, x.2.Nodup
  | [], _, _ => by rw [walkEntries]; simp
  | (part, e) :: es, hn, h => by
    rw [DistinctEntriesAll] at h
    rw [List.map_cons, List.nodup_cons] at hn
    obtain ⟨i1, i2⟩ := walkEntries_nodup root es hn.2 h.2
    rw [walkEntries]
    split
    · obtain ⟨j1, j2⟩ := walkTree_nodup (root ++ [part]) e h.1
      refine ⟨?_, fun x hx => ?_⟩
      · rw [List.map_append, List.nodup_append]
        refine ⟨j1, i1, fun a ha b hb hab => ?_⟩
        subst hab
        obtain ⟨x, hx, rfl⟩ := List.mem_map.1 ha
        obtain ⟨y, hy, he⟩ := List.mem_map.1 hb
        have h1 := walkTree_prefix _ e x hx
        obtain ⟨p, hp, h2⟩ := walkEntries_prefix root es y hy
        rw [he] at h2
        exact hn.1 (prefix_part_eq h1 h2 ▸ hp)
      · rcases List.mem_append.1 hx with hx | hx
        · exact j2 x hx
        · exact i2 x hx
    · exact ⟨i1, i2⟩

end

theorem mem_findFilesPaths {directory : Entry} {f : File} :
    f ∈ findFilesPaths directory ↔ ∃ files name, (f.parents, files) ∈ walkTree [] directory ∧ name ∈ files ∧
      f.name = name.toList := by
  unfold findFilesPaths
  rw [List.mem_flatMap]
  constructor
  · rintro ⟨⟨root, files⟩, h, hf⟩
    obtain ⟨name, hn, rfl⟩ := List.mem_map.1 hf
    exact ⟨files, name, h, hn, rfl⟩
  · rintro ⟨files, name, h, hn, he⟩
    exact ⟨_, h, List.mem_map.2 ⟨name, hn, by cases f; cases he; rfl⟩⟩

theorem nodup_pairs : ∀ l : List (Path × List String), (l.map Prod.fst).Nodup → (∀ x ∈ l, x.2.Nodup) →
    (l.flatMap fun rf => rf.2.map fun name => (⟨rf.1, name.toList⟩ : File)).Nodup
  | [], _, _ => by simp
  | x :: l, h, hx => by
    rw [List.map_cons, List.nodup_cons] at h
    rw [List.flatMap_cons, List.nodup_append]
    refine ⟨?_, nodup_pairs l h.2 fun y hy => hx y (List.mem_cons_of_mem _ hy), fun a ha b hb hab => ?_⟩
    · have := hx x List.mem_cons_self
      rw [List.Nodup, List.pairwise_map]
      refine List.Pairwise.imp (fun {a b} hab he => hab ?_) this
      have : a.toList = b.toList := congrArg File.name he
      exact String.toList_inj.1 this
    · subst hab
      obtain ⟨_, _, rfl⟩ := List.mem_map.1 ha
      obtain ⟨y, hy, hb⟩ := List.mem_flatMap.1 hb
      obtain ⟨_, _, he⟩ := List.mem_map.1 hb
      exact h.1 (List.mem_map.2 ⟨y, hy, congrArg File.parents he⟩)

end Paradigm
