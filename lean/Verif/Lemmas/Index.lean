import Verif.Lemmas.Catalog
import Verif.Lemmas.Parsing
import Verif.Spec.Index

/-!
# Lemmas about the index of live objects
-/

namespace Paradigm

open Spec

theorem listed_add (paths : Index) (q loc q' : QPath) :
    listed (addLocation paths q loc) q'
      = if q' = q then listed paths q' ++ [loc] else listed paths q' := by
  unfold listed addLocation
  by_cases h1 : q'.1 = q.1
  · rw [h1, lookup_dictUpdate_self, Option.getD_some]
    by_cases h2 : q'.2 = q.2
    · rw [h2, lookup_dictUpdate_self, if_pos (Prod.ext h1 h2)]; rfl
    · rw [lookup_dictUpdate_ne _ _ _ h2, if_neg fun e => h2 (congrArg Prod.snd e)]
  · rw [lookup_dictUpdate_ne _ _ _ h1, if_neg fun e => h1 (congrArg Prod.fst e)]

theorem foldExcept_inv {α β : Type} {f : β → α → Except PyErr β} {I : β → Prop} :
    ∀ {as : List α} {b r : β}, (∀ a ∈ as, ∀ b r, f b a = .ok r → I b → I r) →
    foldExcept f b as = .ok r → I b → I r
  | [], b, r, _, h, hb => by cases h; exact hb
  | a :: as, b, r, hf, h, hb => by
    rw [foldExcept] at h
    cases ha : f b a with
    | error e => rw [ha] at h; cases h
    | ok b' =>
      rw [ha] at h
      exact foldExcept_inv (fun x hx => hf x (List.mem_cons_of_mem _ hx)) h
        (hf a List.mem_cons_self b b' ha hb)

/-- Something established by one element and kept by the others. -/
theorem foldExcept_establishes {α β : Type} {f : β → α → Except PyErr β} {I : β → Prop} {a : α} :
    ∀ {as : List α} {b r : β}, a ∈ as → (∀ b r, f b a = .ok r → I r) →
    (∀ x ∈ as, ∀ b r, f b x = .ok r → I b → I r) → foldExcept f b as = .ok r → I r
  | x :: as, b, r, hx, he, hk, h => by
    rw [foldExcept] at h
    cases ha : f b x with
    | error e => rw [ha] at h; cases h
    | ok b' =>
      rw [ha] at h
      rcases List.mem_cons.1 hx with rfl | hx
      · exact foldExcept_inv (fun x hx => hk x (List.mem_cons_of_mem _ hx)) h (he b b' ha)
      · exact foldExcept_establishes hx he (fun x hx => hk x (List.mem_cons_of_mem _ hx)) h

theorem foldExcept_safe {α β : Type} {f : β → α → Except PyErr β} {err : PyErr} :
    ∀ {as : List α} {b : β}, (∀ a ∈ as, ∀ b, f b a ≠ .error err) → foldExcept f b as ≠ .error err
  | [], b, _ => by simp [foldExcept]
  | a :: as, b, hf => by
    rw [foldExcept]
    cases ha : f b a with
    | error e =>
      simp only
      intro h
      cases h
      exact hf a List.mem_cons_self b ha
    | ok b' => exact foldExcept_safe fun x hx => hf x (List.mem_cons_of_mem _ hx)

variable {W : World}

/-- Nothing disappears. -/
theorem indexNamespace_keeps : ∀ {n : Nat} {m : Path} {ns : Nat} {parent : Path} {visited : List Nat}
    {paths r : Index}, indexNamespace W n m ns parent visited paths = .ok r →
    ∀ q loc, loc ∈ listed paths q → loc ∈ listed r q
  | 0, _, _, _, _, _, _, h => by cases h
  | n + 1, m, ns, parent, visited, paths, r, h => by
    intro q loc
    refine foldExcept_inv (I := fun p => loc ∈ listed paths q → loc ∈ listed p q) ?_ h id
    intro a _ b r ha hb hloc
    have hb := hb hloc
    unfold indexEntry at ha
    split at ha
    · split at ha
      · cases ha; exact hb
      · split at ha
        · cases ha
        · split at ha
          · cases ha
          · refine indexNamespace_keeps ha q loc ?_
            rw [listed_add]
            split
            · exact List.mem_append_left _ hb
            · exact hb
    · split at ha
      · cases ha
      · split at ha
        · cases ha; exact hb
        · cases ha
          rw [listed_add]
          split
          · exact List.mem_append_left _ hb
          · exact hb

theorem entry_keeps {n : Nat} {m parent : Path} {visited : List Nat} {a : String × Value}
    {b r : Index} (ha : indexEntry W (fun id => indexNamespace W n m id) m parent visited b a = .ok r)
    (q loc : QPath) (hb : loc ∈ listed b q) : loc ∈ listed r q := by
  unfold indexEntry at ha
  split at ha
  · split at ha
    · cases ha; exact hb
    · split at ha
      · cases ha
      · split at ha
        · cases ha
        · refine indexNamespace_keeps ha q loc ?_
          rw [listed_add]
          split
          · exact List.mem_append_left _ hb
          · exact hb
  · split at ha
    · cases ha
    · split at ha
      · cases ha; exact hb
      · cases ha
        rw [listed_add]
        split
        · exact List.mem_append_left _ hb
        · exact hb

theorem lookup_of_mem_nodup {α β : Type} [BEq α] [LawfulBEq α] : ∀ {d : List (α × β)} {k : α} {v : β},
    (d.map Prod.fst).Nodup → (k, v) ∈ d → d.lookup k = some v
  | (k', v') :: d, k, v, hn, h => by
    rw [List.lookup_cons]
    rw [List.map_cons, List.nodup_cons] at hn
    rcases List.mem_cons.1 h with h | h
    · cases h; simp
    · have : (k == k') = false := by
        rw [beq_eq_false_iff_ne]
        intro e
        exact hn.1 (List.mem_map.2 ⟨(k, v), by assumption, e⟩)
      rw [this]
      exact lookup_of_mem_nodup hn.2 h

theorem search_of_leads (hW : DistinctNames W) {ns : Nat} {path : Path} {v : Value} {via : List Nat}
    (h : Leads W ns path v via) : W.search ns path = some v := by
  induction h with
  | other h => exact lookup_of_mem_nodup (hW _) h
  | cls h => exact lookup_of_mem_nodup (hW _) h
  | @inside ns name id path v via h h' ih =>
    cases path with
    | nil => cases h'
    | cons x xs =>
      rw [World.search, lookup_of_mem_nodup (hW _) h]
      · exact ih
      · exact fun e => by cases e

/-- Everything listed was listed before or is found at its place. -/
theorem indexNamespace_sound : ∀ {n : Nat} {m : Path} {ns : Nat} {parent : Path} {visited : List Nat}
    {paths r : Index}, indexNamespace W n m ns parent visited paths = .ok r →
    ∀ q loc, loc ∈ listed r q → loc ∈ listed paths q
      ∨ ∃ rest v via, loc = (m, parent ++ rest) ∧ Leads W ns rest v via ∧ W.qualified v = .ok q
        ∧ (q.2 ≠ [] ∨ q.1 ≠ [] ∧ ∃ id, v = .cls id)
  | 0, _, _, _, _, _, _, h => by cases h
  | n + 1, m, ns, parent, visited, paths, r, h => by
    intro q loc
    refine foldExcept_inv (I := fun p => loc ∈ listed p q → loc ∈ listed paths q
      ∨ ∃ rest v via, loc = (m, parent ++ rest) ∧ Leads W ns rest v via ∧ W.qualified v = .ok q
        ∧ (q.2 ≠ [] ∨ q.1 ≠ [] ∧ ∃ id, v = .cls id))
      ?_ h .inl
    rintro ⟨name, value⟩ hmem b r ha hb hloc
    have added : ∀ q', W.qualified value = .ok q' → (∃ via, Leads W ns [name] value via) →
        (q'.2 ≠ [] ∨ q'.1 ≠ [] ∧ ∃ id, value = .cls id) →
        loc ∈ listed (addLocation b q' (m, parent ++ [name])) q → loc ∈ listed paths q
      ∨ ∃ rest v via, loc = (m, parent ++ rest) ∧ Leads W ns rest v via ∧ W.qualified v = .ok q
        ∧ (q.2 ≠ [] ∨ q.1 ≠ [] ∧ ∃ id, v = .cls id) := by
      intro q' hq' ⟨via, hl⟩ hp hin
      rw [listed_add] at hin
      split at hin
      · rename_i e
        rcases List.mem_append.1 hin with hin | hin
        · exact hb hin
        · rw [List.mem_singleton] at hin
          exact .inr ⟨[name], value, via, hin, hl, e ▸ hq', e ▸ hp⟩
      · exact hb hin
    unfold indexEntry at ha
    simp only at ha
    split at ha
    · rename_i id
      split at ha
      · cases ha; exact hb hloc
      · split at ha
        · cases ha
        · rename_i q' hq'
          split at ha
          · cases ha
          · rename_i hne
            rcases indexNamespace_sound ha q loc hloc with h1 | ⟨rest, v, via, h1, h2, h3⟩
            · exact added q' hq' ⟨_, .cls hmem⟩ (by
                cases e1 : q'.1 <;> cases e2 : q'.2 <;> simp_all) h1
            · refine .inr ⟨name :: rest, v, id :: via, ?_, .inside hmem h2, h3⟩
              rw [h1, List.append_assoc]; rfl
    · split at ha
      · cases ha
      · rename_i q' hq'
        split at ha
        · cases ha; exact hb hloc
        · rename_i hne
          cases ha
          exact added q' hq' ⟨_, .other hmem⟩ (.inl (by simpa using hne)) hloc

/-- Everything that can be reached through distinct classes is listed. -/
theorem indexNamespace_complete {q : QPath} (hq : q.2 ≠ []) {ns : Nat} {path : Path} {v : Value}
    {via : List Nat} (hl : Leads W ns path v via) (hv : W.qualified v = .ok q) :
    ∀ {n : Nat} {m parent : Path} {visited : List Nat} {paths r : Index},
    indexNamespace W n m ns parent visited paths = .ok r → (via ++ visited).Nodup →
    (m, parent ++ path) ∈ listed r q := by
  have hne : ∀ x : Path, (x.isEmpty && q.2.isEmpty) = false := by
    intro x
    cases h : q.2 with
    | nil => exact absurd h hq
    | cons => simp
  have hne2 : q.2.isEmpty = false := by
    cases h : q.2 with
    | nil => exact absurd h hq
    | cons => rfl
  induction hl with
  | @other ns name id hmem =>
    intro n m parent visited paths r h hn
    cases n with
    | zero => cases h
    | succ n =>
      refine foldExcept_establishes (I := fun r => (m, parent ++ [name]) ∈ listed r q) hmem (fun b r ha => ?_)
        (fun x _ b r ha hb => entry_keeps ha _ _ hb) h
      unfold indexEntry at ha
      simp only [hv, hne2] at ha
      cases ha
      simp only [listed_add, if_true]
      exact List.mem_append_right _ (List.mem_singleton.2 rfl)
  | @cls ns name id hmem =>
    intro n m parent visited paths r h hn
    cases n with
    | zero => cases h
    | succ n =>
      refine foldExcept_establishes (I := fun r => (m, parent ++ [name]) ∈ listed r q) hmem (fun b r ha => ?_)
        (fun x _ b r ha hb => entry_keeps ha _ _ hb) h
      unfold indexEntry at ha
      have hvis : visited.contains id = false := by
        rw [Bool.eq_false_iff, ne_eq, List.contains_iff_mem]
        exact (List.nodup_cons.1 hn).1
      simp only [hv, hne, hvis] at ha
      refine indexNamespace_keeps ha _ _ ?_
      simp only [listed_add, if_true]
      exact List.mem_append_right _ (List.mem_singleton.2 rfl)
  | @inside ns name id path v via hmem hl ih =>
    intro n m parent visited paths r h hn
    cases n with
    | zero => cases h
    | succ n =>
      refine foldExcept_establishes (I := fun r => (m, parent ++ (name :: path)) ∈ listed r q) hmem (fun b r ha => ?_)
        (fun x _ b r ha hb => entry_keeps ha _ _ hb) h
      unfold indexEntry at ha
      have hn' : id ∉ via ++ visited ∧ (via ++ visited).Nodup := List.nodup_cons.1 hn
      have hvis : visited.contains id = false := by
        rw [Bool.eq_false_iff, ne_eq, List.contains_iff_mem]
        exact fun e => hn'.1 (List.mem_append_right _ e)
      simp only [hvis, Bool.false_eq_true, if_false] at ha
      split at ha
      · cases ha
      · split at ha
        · cases ha
        · have := ih hv ha (List.perm_middle.nodup_iff.2 hn)
          rwa [List.append_assoc] at this

theorem length_le_of_nodup {α : Type} [DecidableEq α] : ∀ {l k : List α}, l.Nodup →
    (∀ x ∈ l, x ∈ k) → l.length ≤ k.length
  | [], _, _, _ => Nat.zero_le _
  | x :: l, k, hn, h => by
    rw [List.nodup_cons] at hn
    have hx := h x List.mem_cons_self
    have ih := length_le_of_nodup (l := l) (k := k.erase x) hn.2 fun y hy => by
      have hyx : y ≠ x := fun e => hn.1 (e ▸ hy)
      exact (List.mem_erase_of_ne hyx).2 (h y (List.mem_cons_of_mem _ hy))
    rw [List.length_erase_of_mem hx] at ih
    have : 0 < k.length := List.length_pos_of_mem hx
    simp only [List.length_cons]
    omega

theorem World.qualified_ends {W : World} (v : Value) : W.qualified v ≠ .error .recursionError :=
  fun h => by cases qualifiedPathFrom_error h

/-- Nested calls are at most as many as classes. -/
theorem indexNamespace_terminates {classes : List Nat} :
    ∀ {n : Nat} {m : Path} {ns : Nat} {parent : Path} {visited : List Nat} {paths : Index},
    ClosedUnder W ns classes → visited.Nodup → (∀ x ∈ visited, x ∈ classes) →
    classes.length < n + visited.length →
    indexNamespace W n m ns parent visited paths ≠ .error .recursionError
  | 0, _, _, _, _, _, _, hn, hs, hl => by
    have := length_le_of_nodup hn hs
    omega
  | n + 1, m, ns, parent, visited, paths, hc, hn, hs, hl => by
    refine foldExcept_safe fun a hmem b ha => ?_
    obtain ⟨name, value⟩ := a
    unfold indexEntry at ha
    simp only at ha
    split at ha
    · rename_i id
      split at ha
      · cases ha
      · rename_i hvis
        split at ha
        · rename_i e he
          cases ha
          exact absurd he (World.qualified_ends _)
        · split at ha
          · cases ha
          · have hid : id ∈ classes := hc ns (.inl rfl) name id hmem
            refine indexNamespace_terminates (classes := classes) ?_ ?_ ?_ ?_ ha
            · rintro x (rfl | hx)
              · exact hc _ (.inr hid)
              · exact hc x (.inr hx)
            · rw [List.nodup_cons]
              exact ⟨by simpa using hvis, hn⟩
            · intro x hx
              rcases List.mem_cons.1 hx with rfl | hx
              · exact hid
              · exact hs x hx
            · simp only [List.length_cons]; omega
    · split at ha
      · rename_i e he
        cases ha
        exact absurd he (World.qualified_ends _)
      · split at ha <;> cases ha

end Paradigm
