import Verif.Lemmas.Callables

/-!
# `_SignatureNotFound` is not raised while definitions are read

`_SignatureNotFound` is private to `signatures.py`: nothing that reads a single definition raises it.
-/

namespace Paradigm

open Spec PyCall Props

theorem tryEach_ne {α β : Type} {f : α → Except PyErr β} {e : PyErr} (hf : ∀ a, f a ≠ .error e) :
    ∀ l, tryEach f l ≠ some (.error e)
  | [] => by simp [tryEach]
  | a :: l => by
    unfold tryEach
    split
    · exact tryEach_ne hf l
    · intro h
      exact hf a (by simpa using h)

/-- Resolution raises `RecursionError`, `ObjectNotFound`, `AssertionError` or `KeyError`. -/
theorem resolve_errors (T : Tables) : ∀ (n : Nat) (m parent object : Path) (visited : List Path)
    (e : PyErr), resolve T n m parent object visited = .error e →
    e = .recursionError ∨ e = .objectNotFound ∨ e = .assertionError ∨ e = .keyError := by
  intro n
  induction n with
  | zero =>
    intro m parent object visited e h
    rw [resolve] at h
    injection h with h
    exact .inl h.symm
  | succ n ih =>
    intro m parent object visited e h
    apply Classical.byContradiction
    intro hne
    have hn : ∀ m p o v, resolve T n m p o v ≠ .error e := fun m p o v h => hne (ih _ _ _ _ _ h)
    have key : ∀ e', Except.error (ε := PyErr) (α := QPath) e' = .error e →
        (e' = .recursionError ∨ e' = .objectNotFound ∨ e' = .assertionError ∨ e' = .keyError) →
        False := by
      intro e' h h'
      injection h with h
      subst h
      exact hne h'
    unfold resolve at h
    cases hd : T.definitions.lookup m with
    | none => rw [hd] at h; exact key _ h (by simp)
    | some defs =>
      rw [hd] at h
      cases object with
      | nil => cases h
      | cons head rest =>
        dsimp only at h
        split at h
        · exact key _ h (by simp)
        split at h
        · exact hn _ _ _ _ h
        cases hg : defs.get? head with
        | some scope =>
          rw [hg] at h
          dsimp only at h
          cases hm : missingIndex scope 1 rest with
          | none => rw [hm] at h; cases h
          | some index =>
            rw [hm] at h
            dsimp only at h
            split at h
            · rename_i r hr
              subst h
              exact tryEach_ne (fun a => hn _ _ _ _) _ hr
            · split at h
              · exact hn _ _ _ _ h
              · exact key _ h (by simp)
        | none =>
          rw [hg] at h
          dsimp only at h
          split at h
          · rename_i r hr
            subst h
            exact tryEach_ne (fun a => hn _ _ _ _) _ hr
          · cases hrf : T.references.lookup m with
            | none => rw [hrf] at h; exact key _ h (by simp)
            | some refs =>
              rw [hrf] at h
              dsimp only at h
              split at h
              · split at h
                · exact hn _ _ _ _ h
                · split at h
                  · exact key _ h (by simp)
                  · split at h
                    · exact key _ h (by simp)
                    · exact hn _ _ _ _ h
                · injection h with h
                  subst h
                  exact hn _ _ _ _ (by assumption)
              · cases hb : T.definitions.lookup builtinsPath with
                | none => rw [hb] at h; exact key _ h (by simp)
                | some bs =>
                  rw [hb] at h
                  dsimp only at h
                  split at h
                  · cases h
                  · exact key _ h (by simp)

theorem anyExcept_error {α : Type} {f : α → Except PyErr Bool} {e : PyErr} :
    ∀ {l : List α}, anyExcept f l = .error e → ∃ a ∈ l, f a = .error e
  | [], h => by cases h
  | a :: l, h => by
    unfold anyExcept at h
    split at h
    · rename_i e' he
      injection h with h
      subst h
      exact ⟨a, List.mem_cons_self, he⟩
    · cases h
    · obtain ⟨x, hx, hf⟩ := anyExcept_error h
      exact ⟨x, List.mem_cons_of_mem _ hx, hf⟩

theorem paramFromNode_error {ev : Expr → Except PyErr Obj} {node : Arg} {d : Option Expr}
    {k : Kind} {e : PyErr} (h : paramFromNode ev node d k = .error e) :
    (∃ x, ev x = .error e) ∨ ∃ tag, e = .valueError tag := by
  unfold paramFromNode at h
  rcases except_bind_error.1 h with h | ⟨a, _, h⟩
  · unfold annotationFrom at h
    split at h
    · cases h
    · exact .inl ⟨_, h⟩
  · split at h
    · rcases except_bind_error.1 h with h | ⟨v, _, h⟩
      · exact .inl ⟨_, h⟩
      · split at h
        · exact .inr (optional_error h)
        · exact .inr (optional_error h)
    · split at h
      · exact .inr (optional_error h)
      · exact .inr (required_error h)

theorem toVariadicParameter_error {ev : Expr → Except PyErr Obj} {node : Option Arg} {k : Kind}
    {e : PyErr} (h : toVariadicParameter ev node k = .error e) :
    (∃ x, ev x = .error e) ∨ ∃ tag, e = .valueError tag := by
  unfold toVariadicParameter at h
  split at h
  · cases h
  · rcases except_bind_error.1 h with h | ⟨p, _, h⟩
    · exact paramFromNode_error h
    · cases h

theorem declaredParameters_error {ev : Expr → Except PyErr Obj} {a : Arguments} {e : PyErr}
    (h : declaredParameters ev a = .error e) :
    (∃ x, ev x = .error e) ∨ (∃ tag, e = .valueError tag) ∨ e = .attributeError := by
  have w : ∀ {P Q R : Prop}, P ∨ Q → P ∨ Q ∨ R := fun h => h.imp_right .inl
  unfold declaredParameters at h
  rcases except_bind_error.1 h with h | ⟨ps, _, h⟩
  · obtain ⟨x, _, h⟩ := mapExcept_error h
    split at h
    · injection h with h
      exact .inr (.inr h.symm)
    · exact w (paramFromNode_error h)
  rcases except_bind_error.1 h with h | ⟨vs, _, h⟩
  · exact w (toVariadicParameter_error h)
  rcases except_bind_error.1 h with h | ⟨ks, _, h⟩
  · obtain ⟨x, _, h⟩ := mapExcept_error h
    exact w (paramFromNode_error h)
  rcases except_bind_error.1 h with h | ⟨ws, _, h⟩
  · exact w (toVariadicParameter_error h)
  · cases h

theorem replaceFirst_error {a : Obj} {ps : List Param} {e : PyErr}
    (h : replaceFirst a ps = .error e) : e = .indexError ∨ ∃ tag, e = .valueError tag := by
  unfold replaceFirst at h
  split at h
  · injection h with h
    exact .inl h.symm
  · rcases except_bind_error.1 h with h | ⟨p, _, h⟩
    · exact .inr (required_error h)
    · cases h

/-- What reading a definition may raise: what the evaluation or the resolution raises, and errors of
Python or of the constructors. -/
theorem fromFunctionDef_found {R : Runtime} {f : FunctionDef} {c : Fn} {m parent : Path}
    (hev : ∀ x, R.ev m parent x ≠ .error .signatureNotFound) :
    fromFunctionDef R f c m parent ≠ .error .signatureNotFound := by
  intro h
  unfold fromFunctionDef at h
  rcases except_bind_error.1 h with h | ⟨ps, _, h⟩
  · unfold parametersFrom at h
    rcases except_bind_error.1 h with h | ⟨ps, _, h⟩
    · rcases declaredParameters_error h with ⟨x, h⟩ | ⟨tag, h⟩ | h
      · exact hev x h
      · cases h
      · cases h
    split at h
    · split at h <;> cases h
    rcases except_bind_error.1 h with h | ⟨b, _, h⟩
    · obtain ⟨d, _, h⟩ := anyExcept_error h
      unfold isClassmethod at h
      split at h
      · cases h
      · split at h
        · rename_i e he
          injection h with h
          subst h
          rcases resolve_errors _ _ _ _ _ _ _ he with h | h | h | h <;> cases h
        · cases h
    split at h
    · rcases replaceFirst_error h with h | ⟨_, h⟩ <;> cases h
    split at h
    · cases h
    · split at h
      · rcases replaceFirst_error h with h | ⟨_, h⟩ <;> cases h
      · cases h
  rcases except_bind_error.1 h with h | ⟨r, _, h⟩
  · unfold returnsFrom at h
    split at h
    · cases h
    · split at h
      · cases h
      · exact hev _ h
  rcases except_bind_error.1 h with h | ⟨s, _, h⟩
  · obtain ⟨tag, h⟩ := plainNew_error h
    cases h
  · cases h

end Paradigm
