import Verif.Lemmas.Evaluation

/-!
# Lemmas about the meaning of names
-/

namespace Paradigm

open Spec

section

variable {V : Type} {W : Interpreter V}

theorem searchObject_of_follow : ∀ {path : Path} {v : V} {r : Except PyErr V},
    follow W v path = r →
    searchObject W v path =
      match r with
      | .ok v => .ok v
      | .error .attributeError => .error .objectNotFound
      | .error e => .error e
  | [], v, r, h => by
    rw [follow] at h
    rw [searchObject, ← h]
  | name :: names, v, r, h => by
    rw [follow] at h
    rw [searchObject]
    cases hg : W.getattr v name with
    | ok w =>
      rw [hg] at h
      exact searchObject_of_follow h
    | error e =>
      rw [hg] at h
      subst h
      cases e <;> rfl

variable {T : Stubs} {depth : Nat} {other : Atom → String}

/-- Objects that exist at run time are found there. -/
theorem evalPath_runtime {q : QPath} {v : V} (h : runtimeObject W q = .ok (some v)) (n : Nat)
    (s : EvalState V) : evalPath W T depth other (n + 1) q s = (.ok v, s) := by
  obtain ⟨m, path⟩ := q
  unfold runtimeObject at h
  rw [evalPath]
  cases hi : W.importModule m with
  | error e => simp only [hi] at h; cases h
  | ok o =>
    cases o with
    | none => simp only [hi] at h; cases h
    | some module =>
      simp only [hi] at h
      rw [Ev.bind_ok (Ev.lift_ok rfl s)]
      simp only
      cases hf : follow W module path with
      | ok w =>
        rw [hf] at h
        cases h
        rw [searchObject_of_follow hf]
        rfl
      | error e =>
        rw [hf] at h
        cases e <;> cases h

/-- Objects that do not exist at run time are looked up in the stubs. -/
theorem evalPath_stub {m path : Path} (h : runtimeObject W (m, path) = .ok none) (hp : path ≠ [])
    (n : Nat) (s : EvalState V) :
    evalPath W T depth other (n + 1) (m, path) s =
      evalStub W T depth other (evalPath W T depth other n) m path s := by
  unfold runtimeObject at h
  rw [evalPath]
  have hp' : path.isEmpty = false := by cases path <;> simp_all
  cases hi : W.importModule m with
  | error e => simp only [hi] at h; cases h
  | ok o =>
    cases o with
    | none =>
      rw [Ev.bind_ok (Ev.lift_ok rfl s)]
      simp only [hp', Bool.false_eq_true, if_false]
    | some module =>
      simp only [hi] at h
      rw [Ev.bind_ok (Ev.lift_ok rfl s)]
      simp only
      cases hf : follow W module path with
      | ok w => rw [hf] at h; cases h
      | error e =>
        have he : e = .attributeError := by rw [hf] at h; cases e <;> first | rfl | cases h
        subst he
        rw [searchObject_of_follow hf]

end

section

variable {V : Type} {W : Interpreter V} {env env' : String → Option V}

variable (hmono : ∀ id v, env id = some v → env' id = some v)

include hmono

mutual

/-- More names with values change no value. -/
theorem pyEval_mono : ∀ (e : Expr) (v : V), pyEval W env e = .ok v → pyEval W env' e = .ok v
  | .name id load, v, h => by
    cases load with
    | false => rw [pyEval] at h; cases h
    | true =>
      rw [pyEval] at h ⊢
      cases hid : env id with
      | none => rw [hid] at h; cases h
      | some w => rw [hid] at h; rw [hmono id w hid]; exact h
  | .attribute value attr load, v, h => by
    cases load with
    | false => rw [pyEval] at h; cases h
    | true =>
      rw [pyEval] at h ⊢
      cases h1 : pyEval W env value with
      | error e => rw [h1] at h; cases h
      | ok w => rw [h1] at h; rw [pyEval_mono value w h1]; exact h
  | .subscript value slice load, v, h => by
    cases load with
    | false => rw [pyEval] at h; cases h
    | true =>
      rw [pyEval] at h ⊢
      cases h1 : pyEval W env value with
      | error e => rw [h1] at h; cases h
      | ok w =>
        cases h2 : pyEval W env slice with
        | error e => rw [h1, h2] at h; cases h
        | ok i => rw [h1, h2] at h; rw [pyEval_mono value w h1, pyEval_mono slice i h2]; exact h
  | .tuple elts load, v, h => by
    cases load with
    | false => rw [pyEval] at h; cases h
    | true =>
      rw [pyEval] at h ⊢
      cases h1 : pyEvals W env elts with
      | error e => rw [h1] at h; cases h
      | ok w => rw [h1] at h; rw [pyEvals_mono elts w h1]; exact h
  | .list elts, v, h => by
    rw [pyEval] at h ⊢
    cases h1 : pyEvals W env elts with
    | error e => rw [h1] at h; cases h
    | ok w => rw [h1] at h; rw [pyEvals_mono elts w h1]; exact h
  | .call func args keywords, v, h => by
    rw [pyEval] at h ⊢
    by_cases g : (keywords.map Prod.fst).Nodup ∧ none ∉ keywords.map Prod.fst
    · rw [if_pos g] at h ⊢
      cases h1 : pyEval W env func with
      | error e => rw [h1] at h; cases h
      | ok f =>
        cases h2 : pyEvals W env args with
        | error e => rw [h1, h2] at h; cases h
        | ok vs =>
          cases h3 : pyKeywords W env keywords with
          | error e => rw [h1, h2, h3] at h; cases h
          | ok kvs =>
            rw [h1, h2, h3] at h
            rw [pyEval_mono func f h1, pyEvals_mono args vs h2, pyKeywords_mono keywords kvs h3]
            exact h
    · rw [if_neg g] at h
      cases h
  | .constant a, v, h => by
    rw [pyEval] at h ⊢
    exact h
  | .binOp left op right, v, h => by
    rw [pyEval] at h ⊢
    cases h1 : pyEval W env left with
    | error e => rw [h1] at h; cases h
    | ok w =>
      cases h2 : pyEval W env right with
      | error e => rw [h1, h2] at h; cases h
      | ok i => rw [h1, h2] at h; rw [pyEval_mono left w h1, pyEval_mono right i h2]; exact h
  | .other tag children, v, h => by
    rcases other_cases tag children with g | ⟨g, ⟨operand, g', rfl⟩ | g'⟩
    · subst g
      rw [pyEval_dict] at h ⊢
      cases h1 : pyEntries W env children with
      | error e => rw [h1] at h; cases h
      | ok kvs => rw [h1] at h; rw [pyEntries_mono children kvs h1]; exact h
    · rw [pyEval_unary W _ g'] at h ⊢
      cases h1 : pyEval W env operand with
      | error e => rw [h1] at h; cases h
      | ok w => rw [h1] at h; rw [pyEval_mono operand w h1]; exact h
    · rw [pyEval_other W env g g'] at h
      cases h

theorem pyEvals_mono : ∀ (es : List Expr) (vs : List V), pyEvals W env es = .ok vs →
    pyEvals W env' es = .ok vs
  | [], vs, h => by rw [pyEvals] at h ⊢; exact h
  | e :: es, vs, h => by
    rw [pyEvals] at h ⊢
    cases h1 : pyEval W env e with
    | error e => rw [h1] at h; cases h
    | ok w =>
      cases h2 : pyEvals W env es with
      | error e => rw [h1, h2] at h; cases h
      | ok ws => rw [h1, h2] at h; rw [pyEval_mono e w h1, pyEvals_mono es ws h2]; exact h

theorem pyKeywords_mono : ∀ (es : List (Option String × Expr)) (vs : List (Option String × V)),
    pyKeywords W env es = .ok vs → pyKeywords W env' es = .ok vs
  | [], vs, h => by rw [pyKeywords] at h ⊢; exact h
  | (k, e) :: es, vs, h => by
    rw [pyKeywords] at h ⊢
    cases h1 : pyEval W env e with
    | error e => rw [h1] at h; cases h
    | ok w =>
      cases h2 : pyKeywords W env es with
      | error e => rw [h1, h2] at h; cases h
      | ok ws => rw [h1, h2] at h; rw [pyEval_mono e w h1, pyKeywords_mono es ws h2]; exact h

theorem pyEntries_mono : ∀ (es : List Expr) (vs : List (V × V)), pyEntries W env es = .ok vs →
    pyEntries W env' es = .ok vs
  | [], vs, h => by
    rw [pyEntries_short W env (by intro _ _ _ h; cases h)] at h
    rw [pyEntries_short W env' (by intro _ _ _ h; cases h)]
    exact h
  | [e], vs, h => by
    rw [pyEntries_short W env (by intro _ _ _ h; cases h)] at h
    rw [pyEntries_short W env' (by intro _ _ _ h; cases h)]
    exact h
  | k :: e :: es, vs, h => by
    rw [pyEntries] at h ⊢
    cases h0 : pyEval W env k with
    | error e => rw [h0] at h; cases h
    | ok x =>
      cases h1 : pyEval W env e with
      | error e => rw [h0, h1] at h; cases h
      | ok w =>
        cases h2 : pyEntries W env es with
        | error e => rw [h0, h1, h2] at h; cases h
        | ok ws =>
          rw [h0, h1, h2] at h
          rw [pyEval_mono k x h0, pyEval_mono e w h1, pyEntries_mono es ws h2]
          exact h

end

end

section

variable {V : Type} {W : Interpreter V} {T : Stubs} {depth : Nat} {known : QPath → Option V}

/-- The environment of names in a module and class. -/
def nameEnv (W : Interpreter V) (T : Stubs) (depth : Nat) (known : QPath → Option V) (n : Nat)
    (m parent : Path) : String → Option V := fun id =>
  match resolve T.toTables depth m parent [id] [] with
  | .ok r => meaning W T depth known n r
  | .error _ => none

theorem meaning_alias {n : Nat} {q : QPath} {v : V} (h : meaning W T depth known (n + 1) q = some v) :
    runtimeObject W q = .ok (some v) ∨ (runtimeObject W q = .ok none ∧ q.2 ≠ [] ∧
      (known q = some v ∨ (known q = none ∧ ∃ e, aliasValue T q = some e ∧
        pyEval W (nameEnv W T depth known n q.1 q.2.dropLast) e = .ok v))) := by
  rw [meaning] at h
  cases hr : runtimeObject W q with
  | error e => rw [hr] at h; cases h
  | ok o =>
    rw [hr] at h
    cases o with
    | some w => cases h; exact .inl rfl
    | none =>
      simp only at h
      by_cases hp : q.2 = []
      · rw [if_pos hp] at h; cases h
      · rw [if_neg hp] at h
        refine .inr ⟨rfl, hp, ?_⟩
        cases hk : known q with
        | some w => rw [hk] at h; cases h; exact .inl rfl
        | none =>
          rw [hk] at h
          refine .inr ⟨rfl, ?_⟩
          cases ha : aliasValue T q with
          | none => rw [ha] at h; cases h
          | some e =>
            rw [ha] at h
            simp only at h
            refine ⟨e, rfl, ?_⟩
            show pyEval W (fun id => _) e = _
            split at h
            · next w hw => cases h; exact hw
            · cases h

theorem meaning_of {n : Nat} {q : QPath} {v : V}
    (h : runtimeObject W q = .ok (some v) ∨ (runtimeObject W q = .ok none ∧ q.2 ≠ [] ∧
      (known q = some v ∨ (known q = none ∧ ∃ e, aliasValue T q = some e ∧
        pyEval W (nameEnv W T depth known n q.1 q.2.dropLast) e = .ok v)))) :
    meaning W T depth known (n + 1) q = some v := by
  rw [meaning]
  rcases h with h | ⟨h, hp, hk | ⟨hk, e, ha, he⟩⟩
  · rw [h]
  · rw [h]; simp only; rw [if_neg hp, hk]
  · rw [h]; simp only; rw [if_neg hp, hk, ha]
    show (match pyEval W (nameEnv W T depth known n q.1 q.2.dropLast) e with
      | .ok v => some v
      | .error _ => none) = _
    rw [he]

theorem meaning_succ : ∀ {n : Nat} {q : QPath} {v : V}, meaning W T depth known n q = some v →
    meaning W T depth known (n + 1) q = some v
  | 0, _, _, h => by rw [meaning] at h; cases h
  | n + 1, q, v, h => by
    refine meaning_of ?_
    rcases meaning_alias h with h | ⟨h, hp, hk | ⟨hk, e, ha, he⟩⟩
    · exact .inl h
    · exact .inr ⟨h, hp, .inl hk⟩
    · refine .inr ⟨h, hp, .inr ⟨hk, e, ha, pyEval_mono (fun id w hw => ?_) e v he⟩⟩
      unfold nameEnv at hw ⊢
      cases hr : resolve T.toTables depth q.1 q.2.dropLast [id] [] with
      | error e => rw [hr] at hw; cases hw
      | ok r => rw [hr] at hw; exact meaning_succ hw

theorem meaning_le {n k : Nat} {q : QPath} {v : V} (h : meaning W T depth known n q = some v)
    (hk : n ≤ k) : meaning W T depth known k q = some v := by
  induction hk with
  | refl => exact h
  | step _ ih => exact meaning_succ ih

theorem meaning_unique {n k : Nat} {q : QPath} {v w : V} (h : meaning W T depth known n q = some v)
    (h' : meaning W T depth known k q = some w) : v = w := by
  have h1 := meaning_le h (Nat.le_max_left n k)
  have h2 := meaning_le h' (Nat.le_max_right n k)
  rw [h1] at h2
  cases h2
  rfl

end

end Paradigm
