import Verif.Lemmas.WrittenBases

/-!
# Lemmas about what names of bases always mean
-/

namespace Paradigm

open Spec

theorem pointwise_mem_left {α β : Type} {r : α → β → Prop} : ∀ {as : List α} {bs : List β}, Pointwise r as bs →
    ∀ {x : α}, x ∈ as → ∃ q, r x q
  | _ :: _, _ :: _, h, _, .head _ => ⟨_, h.1⟩
  | _ :: _, _ :: _, h, _, .tail _ hx => pointwise_mem_left h.2 hx

theorem pointwise_weaken {α β : Type} {r t : α → β → Prop} (hrt : ∀ x q, r x q → t x q) :
    ∀ {as : List α} {bs : List β}, Pointwise r as bs → Pointwise t as bs
  | [], [], _ => trivial
  | _ :: _, _ :: _, h => ⟨hrt _ _ h.1, pointwise_weaken hrt h.2⟩

/-- A module that has references keeps having them. -/
def StillRefers (m : Path) (s t : ParseState) : Prop :=
  (s.references.lookup m).isSome → (t.references.lookup m).isSome

theorem stillRefers_preorder (m : Path) : Preorder' (StillRefers m) :=
  ⟨fun _ h => h, fun h h' hs => h' (h hs)⟩

theorem stillRefers_same {m : Path} {s t : ParseState} (h : t.references = s.references) : StillRefers m s t := by
  unfold StillRefers
  rw [h]
  exact id

theorem stillRefers_rels (E : StubFiles) (m : Path) :
    Rels E (fun _ => StillRefers m) (fun _ _ => StillRefers m) (StillRefers m) where
  preV _ := stillRefers_preorder m
  preW _ _ := stillRefers_preorder m
  preR := stillRefers_preorder m
  RV _ _ _ h := h
  RW _ _ _ _ h := h
  updates c := {
    definition := fun _ _ => stillRefers_same rfl
    reference := fun path q s hs => by
      show ((addReference c path q s).references.lookup m).isSome
      unfold addReference
      dsimp only
      by_cases he : m = c.module
      · subst he
        rw [lookup_dictUpdate_self]
        rfl
      · rw [lookup_dictUpdate_ne _ _ _ he]
        exact hs
    submodule := fun _ _ => stillRefers_same rfl
    node := fun _ _ _ _ => stillRefers_same rfl }
  definition _ _ _ _ := stillRefers_same rfl
  baseUpdates _ _ := ⟨fun _ _ => stillRefers_same rfl, fun _ _ _ => stillRefers_same rfl,
    fun _ => stillRefers_same rfl, fun _ _ => stillRefers_same rfl⟩
  head c name s _ h := (stillRefers_preorder m).trans
    (stillRefers_same (t := addDefinition c [name] (addKind c [name] .class_ s)) rfl) h
  child _ _ _ _ h := h
  asked _ _ _ _ := stillRefers_same rfl
  started x s t _ _ h := (stillRefers_preorder m).trans (t := started x s) (fun hs => by
    unfold started
    dsimp only
    by_cases he : m = x
    · subst he
      rw [lookup_dictSet_self]
      rfl
    · rw [lookup_dictSet_ne _ _ he]
      exact hs) h

/-- A module that was read has references, if only none at all. -/
theorem readToEnd_refers {E : StubFiles} {t : ParseState} {m : Path} {body : List Stmt} (hsrc : E.source m = some body)
    (hread : ReadToEnd E t m) : (t.references.lookup m).isSome := by
  obtain ⟨k, s, scope, u, hm, h, hsame⟩ := hread
  rw [hsame.references]
  cases k with
  | zero => rw [parseScope] at h; cases congrArg Prod.fst h
  | succ k =>
    rw [parse_source E k hm hsrc] at h
    have hR := stillRefers_preorder m
    refine (Pres.bind hR (Pres.each hR body fun node _ => (parsing_rels (stillRefers_rels E m) k).1
      { module := m, parent := [] } node) fun _ => Pres.item hR ParseState.definitions m).of_eq h ?_
    unfold started
    dsimp only
    rw [lookup_dictSet_self]
    rfl

section means

variable {T : Tables} {n : Nat} {m : Path}

theorem finds_builtin {b : String} {defs : Scope} (hl : T.definitions.lookup m = some defs)
    (hno : ¬ DefinedIn T m [b]) (hd : DefinedIn T ["builtins"] [b]) (hs : (T.submodules.lookup m).getD [] = [])
    (hk : (T.references.lookup m).isSome) (hr : ((T.references.lookup m).getD []).lookup [b] = none) :
    resolve T (n + 1) m [] [b] [] = .ok (["builtins"], [b]) := by
  rw [resolve_succ, step, hl]
  have hg : defs.get? b = none := by
    cases hg : defs.get? b with
    | none => rfl
    | some inner => exact absurd ⟨defs, hl, inner, hg, trivial⟩ hno
  have hsubs : T.subs m = [] := hs
  dsimp only
  rw [hg, hsubs]
  obtain ⟨refs, hl'⟩ := Option.isSome_iff_exists.1 hk
  rw [hl', Option.getD_some] at hr
  obtain ⟨bs, hb1, inner, hb2, -⟩ := hd
  have hb1' : T.definitions.lookup builtinsPath = some bs := hb1
  have hno : longestReference refs [b] 1 = none := by
    refine longestReference_none.2 fun k h1 h2 => ?_
    have hk : k = 1 := by omega
    subst hk
    exact hr
  have hb2' : bs.get? b = some inner := hb2
  simp [scopeContains, missingIndex, hl', tryEach, hno, hb1', hb2']
  rfl

theorem finds_imported {b : String} {q : QPath} {defs : Scope} (hl : T.definitions.lookup m = some defs)
    (hno : ¬ DefinedIn T m [b]) (hd : DefinedIn T q.1 q.2) (hs : (T.submodules.lookup m).getD [] = [])
    (hr : ((T.references.lookup m).getD []).lookup [b] = some q) :
    resolve T (n + 2) m [] [b] [] = .ok q := by
  rw [resolve_succ, step, hl]
  have hg : defs.get? b = none := by
    cases hg : defs.get? b with
    | none => rfl
    | some inner => exact absurd ⟨defs, hl, inner, hg, trivial⟩ hno
  have hsubs : T.subs m = [] := hs
  dsimp only
  rw [hg, hsubs]
  cases hl' : T.references.lookup m with
  | none => rw [hl'] at hr; cases hr
  | some refs =>
    rw [hl', Option.getD_some] at hr
    have hyes : longestReference refs [b] 1 = some (1, q) := by
      simp [longestReference, hr]
    obtain ⟨rm, ro⟩ := q
    simp only [List.length_nil, Nat.zero_add, hyes]
    simp [scopeContains, missingIndex, tryEach, resolve_of_defined hd]

theorem finds_inside {x : String} {xs : Path} {b : String} {target : Path} {defs : Scope}
    (hl : T.definitions.lookup m = some defs) (hno : ¬ DefinedIn T m [x]) (hd : DefinedIn T target [b])
    (hs : (T.submodules.lookup m).getD [] = [])
    (hr : ((T.references.lookup m).getD []).lookup (x :: xs) = some (target, []))
    (hr' : ((T.references.lookup m).getD []).lookup (x :: xs ++ [b]) = none) :
    resolve T (n + 2) m [] (x :: xs ++ [b]) [] = .ok (target, [b]) := by
  rw [List.cons_append, resolve_succ, step, hl]
  have hg : defs.get? x = none := by
    cases hg : defs.get? x with
    | none => rfl
    | some inner => exact absurd ⟨defs, hl, inner, hg, trivial⟩ hno
  have hsubs : T.subs m = [] := hs
  dsimp only
  rw [hg, hsubs]
  cases hl' : T.references.lookup m with
  | none => rw [hl'] at hr; cases hr
  | some refs =>
    rw [hl', Option.getD_some] at hr hr'
    have hyes : longestReference refs (x :: (xs ++ [b])) ((xs ++ [b]).length + 1) = some (xs.length + 1, target, []) := by
      have e1 : (x :: (xs ++ [b])).take (xs.length + 1 + 1) = x :: xs ++ [b] := by
        rw [List.take_of_length_le (by simp)]
        rfl
      have e2 : (x :: (xs ++ [b])).take (xs.length + 1) = x :: xs := by simp
      rw [List.length_append, List.length_singleton, longestReference, e1, hr', longestReference, e2, hr]
    have hdrop : (x :: (xs ++ [b])).drop (xs.length + 1) = [b] := by simp
    simp only [hyes, hdrop]
    obtain ⟨defs', hd1, -⟩ := id hd
    have hmod : ∀ visited, resolve T (n + 1) target [] [] visited = .ok (target, []) := fun visited => by
      rw [resolve, hd1]
    simp [scopeContains, missingIndex, tryEach, hmod, resolve_of_defined hd]

end means

end Paradigm
