import Verif.Lemmas.Kinds
import Verif.Lemmas.Superclasses
import Verif.Spec.Reading

/-!
# Lemmas about the stub parser: how the reading of modules ends
-/

namespace Paradigm

open Spec

/-- The module was read. -/
def WasRead (E : StubFiles) (t : ParseState) (m : Path) : Prop :=
  ∃ k s r u, m ∉ s.visited ∧ parseScope E k m s = (r, u) ∧ SameAt u t m

theorem WasRead.same {E : StubFiles} {t t' : ParseState} {m : Path} (h : WasRead E t m)
    (hs : SameAt t t' m) : WasRead E t' m := by
  obtain ⟨k, s, r, u, h1, h2, h3⟩ := h
  exact ⟨k, s, r, u, h1, h2, h3.trans' hs⟩

theorem WasRead.either {E : StubFiles} {t : ParseState} {m : Path} (h : WasRead E t m) :
    ReadToEnd E t m ∨ BrokenOff E t m := by
  obtain ⟨k, s, r, u, h1, h2, h3⟩ := h
  cases r with
  | ok scope => exact .inl ⟨k, s, scope, u, h1, h2, h3⟩
  | error e => exact .inr ⟨k, s, e, u, h1, h2, h3⟩

/-- Modules visited meanwhile were read. -/
def ReadNew (E : StubFiles) (K : Path → Prop) (s t : ParseState) : Prop :=
  Ext K s t ∧ ∀ m ∈ t.visited, m ∉ s.visited → WasRead E t m

theorem readNew_trans {E : StubFiles} {K : Path → Prop} {s t u : ParseState}
    (hK : ∀ m, K m → m ∈ s.visited) (h : ReadNew E K s t) (h' : ReadNew E K t u) :
    ReadNew E K s u := by
  refine ⟨(ext_preorder K).trans h.1 h'.1, fun m hm hs => ?_⟩
  by_cases ht : m ∈ t.visited
  · exact (h.2 m ht hs).same (h'.1.same m ht fun k => hs (hK m k))
  · exact h'.2 m hm ht

theorem readNew_local {E : StubFiles} {K : Path → Prop} {s t : ParseState} (he : Ext K s t)
    (hvis : t.visited = s.visited) : ReadNew E K s t :=
  ⟨he, fun _ hm hs => absurd (hvis ▸ hm) hs⟩

theorem readNew_rels (E : StubFiles) : Rels E
    (fun c s t => c.module ∈ s.visited → ReadNew E (· = c.module) s t)
    (fun c _ s t => c.module ∈ s.visited → ReadNew E (· = c.module) s t)
    (ReadNew E (fun _ => False)) := by
  have refl : ∀ K s, ReadNew E K s s := fun K s => readNew_local ((ext_preorder K).refl s) rfl
  have pre : ∀ c : Place, Preorder' (fun s t => c.module ∈ s.visited →
      ReadNew E (· = c.module) s t) := fun c =>
    ⟨fun s _ => refl _ s, fun h h' hv => readNew_trans (fun m e => e ▸ hv) (h hv)
      (h' ((h hv).1.visited _ hv))⟩
  have weaken : ∀ (c : Place) s t, ReadNew E (fun _ => False) s t → c.module ∈ s.visited →
      ReadNew E (· = c.module) s t := fun c s t h _ => ⟨h.1.mono fun _ => False.elim, h.2⟩
  refine { preV := pre, preW := fun c _ => pre c, preR := ⟨refl _, fun h h' =>
             readNew_trans (fun _ => False.elim) h h'⟩, RV := weaken,
           RW := fun c _ => weaken c, updates := fun c => ?_,
           definition := fun c name path s _ => readNew_local ((ext_updates c).definition path s) rfl,
           baseUpdates := fun c name => ?_, head := fun c name s t h hv => ?_,
           child := fun _ _ _ _ h => h, asked := fun m s hm hsrc => ?_, started := ?_ }
  · have u := ext_updates c
    exact ⟨fun path s _ => readNew_local (u.definition path s) rfl,
      fun path q s _ => readNew_local (u.reference path q s) rfl,
      fun m s _ => readNew_local (u.submodule m s) rfl,
      fun path node kind s _ => readNew_local (u.node path node kind s) rfl⟩
  · have u := ext_baseUpdates c name
    exact ⟨fun b s _ => readNew_local (u.base b s) rfl,
      fun f q s _ => readNew_local (u.tuple f q s) rfl,
      fun s _ => readNew_local (u.clear s) rfl, fun ps s _ => readNew_local (u.generics ps s) rfl⟩
  · exact readNew_trans (fun m e => e ▸ hv) (readNew_local (ext_classHead c name s) rfl) (h hv)
  · refine ⟨(ext_rels E).asked m s hm hsrc, fun x hx hs => ?_⟩
    have : x = m := (List.mem_cons.1 hx).resolve_right hs
    subst this
    exact ⟨1, s, _, _, hm, parse_missing E 0 hm hsrc, SameAt.rfl' _ _⟩
  · rintro m s t hm ⟨n, body, r, hsrc, hrun⟩ h
    have h := h List.mem_cons_self
    refine ⟨(ext_rels E).started m s t hm ⟨n, body, r, hsrc, hrun⟩ h.1, fun x hx hs => ?_⟩
    by_cases e : x = m
    · subst e
      refine ⟨n + 1, s, (parseScope E (n + 1) x s).1, (parseScope E (n + 1) x s).2, hm, rfl, ?_⟩
      have : (parseScope E (n + 1) x s).2 = t := by
        rw [parse_source E n hm hsrc]
        show (P.bind _ _ _).2 = t
        unfold P.bind
        rw [hrun]
        cases r with
        | error e => rfl
        | ok a => exact item_state _ _ _
      rw [this]
      exact SameAt.rfl' _ _
    · exact h.2 x hx fun hx' => (List.mem_cons.1 hx').elim e hs

theorem parseAll_wasRead {E : StubFiles} {n : Nat} {modules : List Path} {m : Path}
    (hm : m ∈ (parseAll E n modules {}).2.visited) : WasRead E (parseAll E n modules {}).2 m :=
  ((parseAll_pres (readNew_rels E).preR (parsing_rels (readNew_rels E) n).2.2 modules) {}).2 m hm
    (by simp)

theorem each_append_ok {α : Type} {f : α → P Unit} : ∀ {xs ys : List α} {s t : ParseState},
    P.each f (xs ++ ys) s = (.ok (), t) →
      ∃ u, P.each f xs s = (.ok (), u) ∧ P.each f ys u = (.ok (), t)
  | [], _, s, _, h => ⟨s, rfl, h⟩
  | x :: xs, ys, s, t, h => by
    obtain ⟨u, h1, h2⟩ := each_cons_ok (xs := xs ++ ys) h
    obtain ⟨v, h3, h4⟩ := each_append_ok h2
    refine ⟨v, ?_, h4⟩
    show P.bind _ _ s = _
    unfold P.bind
    rw [h1]
    exact h3

theorem parseAll_readToEnd {E : StubFiles} {n : Nat} {before after : List Path} {m : Path}
    {t : ParseState} (h : parseAll E n (before ++ m :: after) {} = (.ok (), t))
    (hm : m ∉ (parseAll E n before {}).2.visited) : ReadToEnd E t m := by
  unfold parseAll at h hm
  obtain ⟨b, s0, h0, h1⟩ := bind_ok h
  obtain ⟨s1, h2, h3⟩ := each_append_ok h1
  obtain ⟨s2, h4, h5⟩ := each_cons_ok h3
  obtain ⟨scope, s3, h6, h7⟩ := bind_ok h4
  cases h7
  have e : ((do
      let _ ← parseScope E n builtinsPath
      P.each (fun m => do
        let _ ← parseScope E n m
        pure ()) before : P Unit) {}).2 = s1 := by
    show (P.bind _ _ _).2 = _
    unfold P.bind
    rw [h0]
    exact congrArg Prod.snd h2
  rw [e] at hm
  refine ⟨n, s1, scope, s2, hm, h6, ?_⟩
  have hR := ext_preorder (fun _ => False)
  have hv : m ∈ s2.visited := by
    cases n with
    | zero => rw [parseScope] at h6; cases congrArg Prod.fst h6
    | succ n =>
      cases hs : E.source m with
      | none => rw [parse_missing E n hm hs] at h6; cases congrArg Prod.fst h6
      | some body =>
        rw [parse_source E n hm hs] at h6
        obtain ⟨_, u, h8, h9⟩ := bind_ok h6
        have hu := (Pres.each (ext_preorder (· = m)) body (fun x _ =>
          (parsing_ext E n).1 { module := m, parent := [] } x)).of_eq h8
        have := item_state ParseState.definitions m u
        rw [h9] at this
        dsimp only at this
        rw [this]
        exact hu.visited m List.mem_cons_self
  exact (Pres.of_eq (R := Ext (fun _ => False)) (Pres.each hR after fun x _ =>
    Pres.bind hR ((parsing_ext E n).2.2 x) fun _ => Pres.pure' hR _) h5).same m hv id

end Paradigm
