import Verif.Lemmas.Catalog
import Verif.Spec.Catalog

/-!
# Lemmas about names of definitions
-/

namespace Paradigm

open Spec

theorem splitDots_named : ∀ (scopes : List Enclosing) (name : String), NamesIn scopes name →
    splitDots (qualname scopes name).toList = (steps scopes name).map String.toList
  | [], name, h => by
    simpa [qualname, steps] using splitDots_plain name.toList (h name (by simp)).1
  | .cls c :: scopes, name, h => by
    have ih := splitDots_named scopes name fun x hx => h x (by
      rcases List.mem_cons.1 hx with rfl | hx
      · simp
      · exact List.mem_cons_of_mem _ (List.mem_cons_of_mem _ hx))
    have hc := (h c (by simp)).1
    have : (qualname (.cls c :: scopes) name).toList =
        c.toList ++ '.' :: (qualname scopes name).toList := by
      simp [qualname]
    rw [this, splitDots_append _ _ hc, ih]; rfl
  | .function f :: scopes, name, h => by
    have ih := splitDots_named scopes name fun x hx => h x (by
      rcases List.mem_cons.1 hx with rfl | hx
      · simp
      · exact List.mem_cons_of_mem _ (List.mem_cons_of_mem _ hx))
    have hc := (h f (by simp)).1
    have : (qualname (.function f :: scopes) name).toList =
        f.toList ++ '.' :: ("<locals>".toList ++ '.' :: (qualname scopes name).toList) := by
      simp [qualname]
    rw [this, splitDots_append _ _ hc, splitDots_append _ _ (by decide), ih]; rfl

theorem map_ofList_toList (path : Path) : (path.map String.toList).map String.ofList = path := by
  rw [List.map_map]
  conv => rhs; rw [← List.map_id path]
  exact List.map_congr_left fun x _ => by simp

theorem pathFromString_qualname {scopes : List Enclosing} {name : String}
    (h : NamesIn scopes name) : pathFromString (qualname scopes name) = steps scopes name := by
  rw [pathFromString, splitDots_named scopes name h, map_ofList_toList]

theorem splitDots_dottedText : ∀ (parts : Path), ModuleParts parts →
    splitDots (dottedText parts).toList = parts.map String.toList
  | [], h => absurd rfl h.1
  | [x], h => by simpa [dottedText] using splitDots_plain x.toList (h.2 x (by simp))
  | x :: y :: parts, h => by
    have ih := splitDots_dottedText (y :: parts) ⟨by simp, fun z hz => h.2 z (List.mem_cons_of_mem _ hz)⟩
    have : (dottedText (x :: y :: parts)).toList = x.toList ++ '.' :: (dottedText (y :: parts)).toList := by
      simp [dottedText]
    rw [this, splitDots_append _ _ (h.2 x (by simp)), ih]; rfl

theorem pathFromString_dottedText {parts : Path} (h : ModuleParts parts) :
    pathFromString (dottedText parts) = parts := by
  rw [pathFromString, splitDots_dottedText parts h, map_ofList_toList]

theorem steps_injective : ∀ {s t : List Enclosing} {a b : String}, NamesIn s a → NamesIn t b →
    steps s a = steps t b → s = t ∧ a = b
  | [], [], a, b, _, _, h => by simpa [steps] using h
  | [], .cls c :: t, a, b, _, _, h => by
    have : steps t b = [] := by simp only [steps, List.cons.injEq] at h; exact h.2.symm
    cases t with
    | nil => cases this
    | cons e t => cases e <;> cases this
  | [], .function f :: t, a, b, _, _, h => by simp [steps] at h
  | .cls c :: s, [], a, b, _, _, h => by
    have : steps s a = [] := by simp only [steps, List.cons.injEq] at h; exact h.2
    cases s with
    | nil => cases this
    | cons e s => cases e <;> cases this
  | .function f :: s, [], a, b, _, _, h => by simp [steps] at h
  | .cls c :: s, .cls d :: t, a, b, hs, ht, h => by
    simp only [steps, List.cons.injEq] at h
    obtain ⟨h1, h2⟩ := steps_injective (fun x hx => hs x (by
      rcases List.mem_cons.1 hx with rfl | hx
      · simp
      · exact List.mem_cons_of_mem _ (List.mem_cons_of_mem _ hx))) (fun x hx => ht x (by
      rcases List.mem_cons.1 hx with rfl | hx
      · simp
      · exact List.mem_cons_of_mem _ (List.mem_cons_of_mem _ hx))) h.2
    exact ⟨by rw [h.1, h1], h2⟩
  | .function f :: s, .function g :: t, a, b, hs, ht, h => by
    simp only [steps, List.cons.injEq] at h
    obtain ⟨h1, h2⟩ := steps_injective (fun x hx => hs x (by
      rcases List.mem_cons.1 hx with rfl | hx
      · simp
      · exact List.mem_cons_of_mem _ (List.mem_cons_of_mem _ hx))) (fun x hx => ht x (by
      rcases List.mem_cons.1 hx with rfl | hx
      · simp
      · exact List.mem_cons_of_mem _ (List.mem_cons_of_mem _ hx))) h.2.2
    exact ⟨by rw [h.1, h1], h2⟩
  | .cls c :: s, .function g :: t, a, b, hs, ht, h => by
    simp only [steps, List.cons.injEq] at h
    exfalso
    cases s with
    | nil =>
      simp only [steps, List.cons.injEq] at h
      exact (hs a (by simp)).2 h.2.1
    | cons e s =>
      cases e with
      | cls c =>
        simp only [steps, List.cons.injEq] at h
        exact (hs c (by simp)).2 h.2.1
      | function c =>
        simp only [steps, List.cons.injEq] at h
        exact (hs c (by simp)).2 h.2.1
  | .function f :: s, .cls d :: t, a, b, hs, ht, h => by
    simp only [steps, List.cons.injEq] at h
    exfalso
    cases t with
    | nil =>
      simp only [steps, List.cons.injEq] at h
      exact (ht b (by simp)).2 h.2.1.symm
    | cons e t =>
      cases e with
      | cls c =>
        simp only [steps, List.cons.injEq] at h
        exact (ht c (by simp)).2 h.2.1.symm
      | function c =>
        simp only [steps, List.cons.injEq] at h
        exact (ht c (by simp)).2 h.2.1.symm

end Paradigm
