import Verif.Lemmas.Superclasses
import Verif.Props.Reading

/-!
# Lemmas about names for which the stub declares nothing
-/

namespace Paradigm

open Spec

/-- No name is recorded without a node. -/
def Filled (s : ParseState) : Prop :=
  ∀ m d, s.nodes.lookup m = some d → ∀ p l, d.lookup p = some l → l ≠ []

theorem Filled.same {s t : ParseState} (h : Filled s) (he : t.nodes = s.nodes) : Filled t := by
  intro m d hm
  rw [he] at hm
  exact h m d hm

theorem filled_node {c : Place} {path : Path} {node : Stmt} {s : ParseState} (h : Filled s) :
    Filled (addNode c path node s) := by
  intro m d hm p l hp
  have hm : (dictSet s.nodes c.module (dictUpdate ((s.nodes.lookup c.module).getD []) (c.parent ++ path) []
      (· ++ [node]))).lookup m = some d := hm
  by_cases he : m = c.module
  · subst he
    rw [lookup_dictSet_self] at hm
    cases hm
    unfold dictUpdate at hp
    by_cases hpe : p = c.parent ++ path
    · subst hpe
      rw [lookup_dictSet_self] at hp
      cases hp
      simp
    · rw [lookup_dictSet_ne _ _ hpe] at hp
      cases hl : s.nodes.lookup c.module with
      | none => rw [hl] at hp; cases hp
      | some d' => rw [hl] at hp; exact h _ _ hl p l hp
  · rw [lookup_dictSet_ne _ _ he] at hm
    exact h m d hm p l hp

theorem filled_rels (E : StubFiles) : Rels E (fun _ s t => Filled s → Filled t) (fun _ _ s t => Filled s → Filled t)
    (fun s t => Filled s → Filled t) where
  preV _ := ⟨fun _ h => h, fun h h' hs => h' (h hs)⟩
  preW _ _ := ⟨fun _ h => h, fun h h' hs => h' (h hs)⟩
  preR := ⟨fun _ h => h, fun h h' hs => h' (h hs)⟩
  RV _ _ _ h := h
  RW _ _ _ _ h := h
  updates c := {
    definition := fun _ _ h => h.same rfl
    reference := fun _ _ _ h => h.same rfl
    submodule := fun _ _ h => h.same rfl
    node := fun _ _ _ _ h => (filled_node h).same rfl }
  definition _ _ _ _ h := h.same rfl
  baseUpdates c name := {
    base := fun _ _ h => h.same rfl
    tuple := fun _ _ _ h => (filled_node h).same rfl
    clear := fun _ h => h.same rfl
    generics := fun _ _ h => h.same rfl }
  head _ _ _ _ h hs := h (hs.same rfl)
  child _ _ _ _ h := h
  asked _ _ _ _ h := h.same rfl
  started m s t _ _ h hs := h (by
    intro m' d hm p l hp
    have hm : (dictSet s.nodes m []).lookup m' = some d := hm
    by_cases he : m' = m
    · subst he
      rw [lookup_dictSet_self] at hm
      cases hm
      cases hp
    · rw [lookup_dictSet_ne _ _ he] at hm
      exact hs m' d hm p l hp)

theorem parseAll_filled {E : StubFiles} {n : Nat} {modules : List Path} {r : Except PyErr Unit}
    {s : ParseState} (h : parseAll E n modules {} = (r, s)) : Filled s :=
  (parseAll_pres (filled_rels E).preR (parsing_rels (filled_rels E) n).2.2 modules).of_eq h
    (fun _ _ h => nomatch h)

/-- The tables have nothing for a path for which nothing is declared. -/
theorem stubs_undeclared {E : StubFiles} {o : Expr → Bool} (ho : Decides E o) {rep : Atom → String}
    {n : Nat} {modules : List Path} {T : Stubs} (h : parseStubs E rep n modules = .ok T) {m : Path}
    (hm : ReadToEnd E (parseAll E n modules {}).2 m) (hspec : m ≠ ["__specializations"])
    {body : List Stmt} (hsrc : E.source m = some body) {p : Path} (hp : p ∉ classPathsAll o [] body)
    (hno : declaredAt (declaredAll o [] body) p = []) {nodes : Dict Path (List Stmt)}
    (hl : T.rawAstNodes.lookup m = some nodes) : nodes.lookup p = none := by
  obtain ⟨s, t, h1, h2, h3⟩ := parseStubs_ok h
  have hs : (parseAll E n modules {}).2 = s := congrArg Prod.snd h1
  have ht : (processBases ⟨E.order, E.order_perm⟩ rep n s).2 = t := congrArg Prod.snd h2
  subst h3
  have hA := processBases_aside (o := ⟨E.order, E.order_perm⟩) rep n s
  rw [ht] at hA
  rw [hs] at hm
  have hn := Props.C100_nodes E o ho s m hm body hsrc p hp
  have hl : s.nodes.lookup m = some nodes := (hA.nodes m hspec).symm.trans hl
  unfold nodesAt at hn
  rw [hno, hl, Option.getD_some] at hn
  cases hp' : nodes.lookup p with
  | none => rfl
  | some l =>
    rw [hp'] at hn
    exact absurd hn (parseAll_filled h1 m nodes hl p l hp')

end Paradigm
