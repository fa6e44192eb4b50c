import Verif.Lemmas.Pretty

/-!
# Equal values are written the same
-/

namespace Paradigm

open Spec

theorem sortTexts_perm {xs ys : List Text} (h : xs.Perm ys) : sortTexts xs = sortTexts ys := by
  unfold sortTexts
  have tr : ∀ a b c : Text, decide (a ≤ b) = true → decide (b ≤ c) = true → decide (a ≤ c) = true := by
    intro a b c h1 h2
    simp only [decide_eq_true_eq] at *
    exact List.le_trans h1 h2
  have tot : ∀ a b : Text, (decide (a ≤ b) || decide (b ≤ a)) = true := by
    intro a b
    simp only [Bool.or_eq_true, decide_eq_true_eq]
    exact List.le_total a b
  refine List.Perm.eq_of_pairwise (le := fun a b : Text => decide (a ≤ b) = true) ?_
    (List.pairwise_mergeSort tr tot xs) (List.pairwise_mergeSort tr tot ys)
    (((List.mergeSort_perm xs _).trans h).trans (List.mergeSort_perm ys _).symm)
  intro a b _ _ h1 h2
  simp only [decide_eq_true_eq] at h1 h2
  exact List.le_antisymm h1 h2

theorem Spec.Rel2.map_eq {α γ : Type} {R : α → α → Prop} {f : α → γ} {xs ys : List α} (h : Rel2 R xs ys)
    (hf : ∀ x ∈ xs, ∀ y, R x y → f x = f y) : xs.map f = ys.map f := by
  induction h with
  | nil => rfl
  | cons h1 _ ih =>
    rw [List.map_cons, List.map_cons, hf _ List.mem_cons_self _ h1,
      ih fun x hx => hf x (List.mem_cons_of_mem _ hx)]

theorem entries_eq {printable : Char → Bool} {indent depth : Nat} : ∀ {fs gs : List (Data × Data)},
    (fs.map Prod.fst).map (reprFrom printable indent depth)
      = (gs.map Prod.fst).map (reprFrom printable indent depth) →
    (fs.map Prod.snd).map (reprFrom printable indent depth)
      = (gs.map Prod.snd).map (reprFrom printable indent depth) →
    fs.map (entryRepr printable indent depth) = gs.map (entryRepr printable indent depth)
  | [], [], _, _ => rfl
  | [], _ :: _, h, _ => by cases h
  | _ :: _, [], h, _ => by cases h
  | f :: fs, g :: gs, h1, h2 => by
    simp only [List.map_cons, List.cons.injEq] at h1 h2 ⊢
    exact ⟨by unfold entryRepr; rw [h1.1, h2.1], entries_eq h1.2 h2.2⟩

theorem reprFrom_equal (printable : Char → Bool) (indent : Nat) : ∀ v : Data, SetFree v →
    ∀ (w : Data) (depth : Nat), Equal v w →
      reprFrom printable indent depth v = reprFrom printable indent depth w := by
  refine Data.ind (fun i _ w d h => ?_) (fun s _ w d h => ?_) (fun xs ih hp w d h => ?_)
    (fun xs ih hp w d h => ?_) (fun xs ih hp w d h => ?_) (fun es ih hp w d h => ?_)
  · cases h; rfl
  · cases h; rfl
  · cases hp with
    | tuple hp =>
    cases h with
    | tuple h =>
    rename_i ys
    have hm : ∀ k, elementsReprs printable indent k xs = elementsReprs printable indent k ys := by
      intro k
      rw [elementsReprs_eq, elementsReprs_eq, h.map_eq fun x hx y e => ih x hx (hp x hx) y k e]
    cases h with
    | nil => rfl
    | cons h1 h2 =>
      cases h2 with
      | nil => rw [reprFrom, reprFrom, ih _ List.mem_cons_self (hp _ List.mem_cons_self) _ d h1]
      | cons h2 h3 => rw [reprFrom, reprFrom, hm]
  · cases hp with
    | list hp =>
    cases h with
    | list h =>
    rename_i ys
    have hm : ∀ k, elementsReprs printable indent k xs = elementsReprs printable indent k ys := by
      intro k
      rw [elementsReprs_eq, elementsReprs_eq, h.map_eq fun x hx y e => ih x hx (hp x hx) y k e]
    cases h with
    | nil => rfl
    | cons h1 h2 => rw [reprFrom, reprFrom, hm]
  · cases hp
  · cases hp with
    | dict hk hv =>
    cases h with
    | dict h1 h2 h3 =>
    rename_i fs gs
    have hm : ∀ k, sortTexts (entriesReprs printable indent k es)
        = sortTexts (entriesReprs printable indent k gs) := by
      intro k
      have : fs.map (entryRepr printable indent k) = gs.map (entryRepr printable indent k) := by
        refine entries_eq (h2.map_eq ?_) (h3.map_eq ?_)
        · intro x hx y e
          obtain ⟨a, ha, rfl⟩ := List.mem_map.1 hx
          have ha := h1.mem_iff.2 ha
          exact (ih a ha).1 (hk a ha) y k e
        · intro x hx y e
          obtain ⟨a, ha, rfl⟩ := List.mem_map.1 hx
          have ha := h1.mem_iff.2 ha
          exact (ih a ha).2 (hv a ha) y k e
      rw [entriesReprs_eq, entriesReprs_eq, ← this]
      exact sortTexts_perm ((h1.map _).map _)
    have hl : es.length = gs.length := by
      have := h2.length
      rw [List.length_map, List.length_map] at this
      rw [h1.length_eq, this]
    cases es with
    | nil =>
      cases gs with
      | nil => rfl
      | cons _ _ => cases hl
    | cons e es =>
      cases gs with
      | nil => cases hl
      | cons g gs => rw [reprFrom, reprFrom, hm]

end Paradigm
