import Verif.Lemmas.Underscores
import Verif.Model.Specialization
import Verif.Spec.Identifiers

/-!
# Identifiers as joined words
-/

namespace Paradigm

open Spec

/-- Words joined by underscores. -/
def joined (l : List String) : List Char := ['_'].intercalate (l.map String.toList)

theorem joined_single (a : String) : joined [a] = a.toList := by simp [joined, List.intercalate]

theorem joined_cons (a : String) {l : List String} (h : l ≠ []) :
    joined (a :: l) = a.toList ++ '_' :: joined l := by
  cases l with
  | nil => exact absurd rfl h
  | cons b l => simp [joined, List.intercalate]

theorem joined_append : ∀ {l l' : List String}, l ≠ [] → l' ≠ [] →
    joined (l ++ l') = joined l ++ '_' :: joined l'
  | [], _, h, _ => absurd rfl h
  | [a], l', _, h' => by rw [List.singleton_append, joined_cons a h', joined_single]
  | a :: b :: l, l', _, h' => by
    rw [List.cons_append, joined_cons a (by simp), joined_append (l := b :: l) (by simp) h',
      joined_cons a (by simp), List.append_assoc, List.cons_append]

theorem joined_inj {l l' : List String} (h : l ≠ []) (h' : l' ≠ []) (hu : ∀ a ∈ l, '_' ∉ a.toList)
    (hu' : ∀ a ∈ l', '_' ∉ a.toList) (e : joined l = joined l') : l = l' := by
  have := join_underscore (by simpa using h) (by simpa using h') (by simpa using hu) (by simpa using hu') e
  exact List.map_inj_right (fun a b => String.toList_inj.1) |>.1 this

theorem opIdentifier_word {op w : String} (h : opIdentifier op = .ok w) : w = operatorWord op := by
  unfold opIdentifier at h
  split at h
  · next e => subst e; cases h; rfl
  · split at h
    · next e => subst e; cases h; rfl
    · split at h
      · next e => subst e; cases h; rfl
      · cases h

mutual

theorem toIdentifier_words (rep : Atom → String) : ∀ (e : Expr) {name : String},
    toIdentifier rep e = .ok name → words rep e ≠ [] ∧ name.toList = joined (words rep e)
  | .name id load, name, h => by
    rw [toIdentifier] at h
    split at h
    · cases h; exact ⟨by simp [words], by rw [words, joined_single]⟩
    · cases h
  | .constant value, name, h => by
    rw [toIdentifier] at h
    cases h
    exact ⟨by simp [words], by rw [words, joined_single]⟩
  | .attribute value attr load, name, h => by
    rw [toIdentifier] at h
    split at h
    · cases h
    · cases hv : toIdentifier rep value with
      | error e => rw [hv] at h; cases h
      | ok v =>
        rw [hv] at h
        cases h
        obtain ⟨h1, h2⟩ := toIdentifier_words rep value hv
        refine ⟨by simp [words], ?_⟩
        rw [words, joined_append h1 (by simp), joined_single, String.toList_append,
          String.toList_append, h2, List.append_assoc]
        rfl
  | .subscript value slice load, name, h => by
    rw [toIdentifier] at h
    split at h
    · cases h
    · cases hv : toIdentifier rep value with
      | error e => rw [hv] at h; cases h
      | ok v =>
        cases hw : toIdentifier rep slice with
        | error e => rw [hv, hw] at h; cases h
        | ok w =>
          rw [hv, hw] at h
          cases h
          obtain ⟨h1, h2⟩ := toIdentifier_words rep value hv
          obtain ⟨h3, h4⟩ := toIdentifier_words rep slice hw
          refine ⟨by simp [words], ?_⟩
          rw [words, joined_append h1 (by simp), joined_cons _ h3, String.toList_append,
            String.toList_append, h2, h4, List.append_assoc]
          rfl
  | .binOp left op right, name, h => by
    rw [toIdentifier] at h
    cases hv : toIdentifier rep left with
    | error e => rw [hv] at h; cases h
    | ok v =>
      cases ho : opIdentifier op with
      | error e => rw [hv, ho] at h; cases h
      | ok o =>
        cases hw : toIdentifier rep right with
        | error e => rw [hv, ho, hw] at h; cases h
        | ok w =>
          rw [hv, ho, hw] at h
          cases h
          obtain ⟨h1, h2⟩ := toIdentifier_words rep left hv
          obtain ⟨h3, h4⟩ := toIdentifier_words rep right hw
          refine ⟨by simp [words], ?_⟩
          rw [words, joined_append h1 (by simp), joined_cons _ h3, ← opIdentifier_word ho]
          simp only [String.toList_append, h2, h4, List.append_assoc]
          rfl
  | .tuple elts load, name, h => by
    rw [toIdentifier] at h
    split at h
    · cases h
    · cases hv : toIdentifiers rep elts with
      | error e => rw [hv] at h; cases h
      | ok names =>
        rw [hv] at h
        have hn : name = String.intercalate "_" names := (Except.ok.inj h).symm
        rw [hn, String.toList_intercalate]
        cases elts with
        | nil =>
          rw [toIdentifiers] at hv
          cases hv
          exact ⟨by simp [words], by rw [words, joined_single]; rfl⟩
        | cons e es =>
          have := toIdentifiers_words rep (e :: es) hv
          obtain ⟨h1, h2⟩ := this (by simp)
          rw [words]
          exact ⟨h1, h2⟩
  | .list _, _, h => by rw [toIdentifier] at h; cases h
  | .call .., _, h => by rw [toIdentifier] at h; cases h
  | .other .., _, h => by rw [toIdentifier] at h; cases h

theorem toIdentifiers_words (rep : Atom → String) : ∀ (es : List Expr) {names : List String},
    toIdentifiers rep es = .ok names → es ≠ [] →
    wordsAll rep es ≠ [] ∧ joined names = joined (wordsAll rep es)
  | [], _, _, h => absurd rfl h
  | e :: es, names, h, _ => by
    rw [toIdentifiers] at h
    cases hv : toIdentifier rep e with
    | error e => rw [hv] at h; cases h
    | ok v =>
      cases hw : toIdentifiers rep es with
      | error e => rw [hv, hw] at h; cases h
      | ok w =>
        rw [hv, hw] at h
        have hn : names = v :: w := (Except.ok.inj h).symm
        subst hn
        obtain ⟨h1, h2⟩ := toIdentifier_words rep e hv
        cases es with
        | nil =>
          rw [toIdentifiers] at hw
          cases hw
          rw [wordsAll, wordsAll, List.append_nil, joined_single]
          exact ⟨h1, h2⟩
        | cons e' es =>
          obtain ⟨h3, h4⟩ := toIdentifiers_words rep (e' :: es) hw (by simp)
          have hne : w ≠ [] := by
            rintro rfl
            rw [toIdentifiers] at hw
            cases h5 : toIdentifier rep e' with
            | error e => rw [h5] at hw; cases hw
            | ok _ =>
              cases h6 : toIdentifiers rep es with
              | error e => rw [h5, h6] at hw; cases hw
              | ok _ => rw [h5, h6] at hw; cases hw
          rw [wordsAll]
          exact ⟨by simp [h1], by rw [joined_append h1 h3, joined_cons v hne, h2, h4]⟩

end

end Paradigm
