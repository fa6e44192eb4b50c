import Verif.Spec.Scoping

/-!
# Helper lemmas about resolution
-/

namespace Paradigm

open Spec

theorem scopeContains_iff : ∀ (path : Path) (scope : Scope),
    scopeContains scope path = true ↔ Defines scope path
  | [], _ => by simp [scopeContains, Defines]
  | name :: path, scope => by
    rw [scopeContains, Defines, Scope.get?]
    cases h : scope.entries.lookup name with
    | none => simp
    | some inner => simp [scopeContains_iff path inner]

theorem scopeContains_nil (scope : Scope) : scopeContains scope [] = true := rfl

theorem missingIndex_none : ∀ (names : Path) (scope : Scope) (i : Nat),
    missingIndex scope i names = none ↔ Defines scope names
  | [], _, _ => by simp [missingIndex, Defines]
  | name :: names, scope, i => by
    rw [missingIndex, Defines, Scope.get?]
    cases h : scope.entries.lookup name with
    | none => simp
    | some inner => simp [missingIndex_none names inner (i + 1)]

theorem missingIndex_defined : ∀ (pre : Path) (scope : Scope) (i : Nat)
    (attr : String) (rest : Path),
    Defines scope pre → ¬ Defines scope (pre ++ [attr]) →
    missingIndex scope i (pre ++ attr :: rest) = some (i + pre.length)
  | [], scope, i, attr, rest, _, h => by
    simp only [List.nil_append, Defines, and_true] at h
    simp only [List.nil_append, missingIndex, Scope.get?]
    cases h' : scope.entries.lookup attr with
    | none => simp
    | some inner => exact absurd ⟨inner, h'⟩ h
  | name :: pre, scope, i, attr, rest, ⟨inner, h1, h2⟩, h => by
    simp only [List.cons_append, missingIndex, Scope.get?, h1]
    rw [missingIndex_defined pre inner (i + 1) attr rest h2]
    · simp only [List.length_cons]; congr 1; omega
    · intro h3
      exact h ⟨inner, h1, h3⟩

/-- One call of `resolve`, with the nested calls abstracted. -/
def step (T : Tables) (f : Path → Path → List Path → Except PyErr QPath)
    (m parent object : Path) (visited : List Path) : Except PyErr QPath :=
    match T.definitions.lookup m with
    | none => .error .objectNotFound
    | some defs =>
      match object with
      | [] => .ok (m, [])
      | head :: rest =>
        if !scopeContains defs parent then .error .assertionError
        else if !parent.isEmpty && scopeContains defs (parent ++ [head]) then
          f m (parent ++ head :: rest) visited
        else
          match defs.get? head with
          | some scope =>
            match missingIndex scope 1 rest with
            | none => .ok (m, head :: rest)
            | some index =>
              match tryEach (fun s : QPath => f s.1
                  (s.2 ++ (head :: rest).drop index) (visited ++ [m]))
                  ((T.supers m ((head :: rest).take index)).getD []) with
              | some r => r
              | none =>
                if head ≠ "object" then
                  f builtinsPath ("object" :: (head :: rest).drop index) visited
                else .error .objectNotFound
          | none =>
            match tryEach (fun s => f s (head :: rest) (visited ++ [m]))
                ((T.subs m).filter (fun s => !visited.contains s)) with
            | some r => r
            | none =>
              match T.references.lookup m with
              | none => .error .keyError
              | some refs =>
                match longestReference refs (head :: rest) (rest.length + 1) with
                | some (k, rm, ro) =>
                  match f rm ro (visited ++ [m]) with
                  | .ok (rm, ro) =>
                    f rm (ro ++ (head :: rest).drop k) (visited ++ [m])
                  | .error .objectNotFound =>
                    if ro.length ≠ 1 then .error .assertionError
                    else if (T.definitions.lookup (rm ++ ro)).isNone then .error .assertionError
                    else f (rm ++ ro) ((head :: rest).drop k) (visited ++ [m])
                  | .error e => .error e
                | none =>
                  match T.definitions.lookup builtinsPath with
                  | none => .error .keyError
                  | some bs =>
                    if scopeContains bs (head :: rest) then .ok (builtinsPath, head :: rest)
                    else .error .objectNotFound

theorem resolve_succ (T : Tables) (n : Nat) (m parent object : Path) (visited : List Path) :
    resolve T (n + 1) m parent object visited
      = step T (fun m o v => resolve T n m [] o v) m parent object visited := by
  rw [resolve, step]
  all_goals rfl

theorem tryEach_mono {α β : Type} {f g : α → Except PyErr β}
    (h : ∀ x, f x ≠ .error .recursionError → g x = f x) : ∀ xs : List α,
    tryEach f xs ≠ some (.error .recursionError) → tryEach g xs = tryEach f xs
  | [], _ => rfl
  | x :: xs, hne => by
    rw [tryEach] at hne
    rw [tryEach, tryEach]
    have hx : f x ≠ .error .recursionError := by
      intro hx
      rw [hx] at hne
      exact hne rfl
    rw [h x hx]
    split at hne
    · exact tryEach_mono h xs hne
    · rfl

theorem step_mono {T : Tables} {f g : Path → Path → List Path → Except PyErr QPath}
    (h : ∀ m o v, f m o v ≠ .error .recursionError → g m o v = f m o v)
    {m parent object : Path} {visited : List Path}
    (hne : step T f m parent object visited ≠ .error .recursionError) :
    step T g m parent object visited = step T f m parent object visited := by
  unfold step at hne ⊢
  cases hd : T.definitions.lookup m with
  | none => rfl
  | some defs =>
    simp only [hd] at hne ⊢
    cases object with
    | nil => rfl
    | cons head rest =>
      simp only at hne ⊢
      by_cases c1 : (!scopeContains defs parent) = true
      · rw [if_pos c1, if_pos c1]
      rw [if_neg c1] at hne
      rw [if_neg c1, if_neg c1]
      by_cases c2 : (!parent.isEmpty && scopeContains defs (parent ++ [head])) = true
      · rw [if_pos c2] at hne
        rw [if_pos c2, if_pos c2]
        exact h _ _ _ hne
      rw [if_neg c2] at hne
      rw [if_neg c2, if_neg c2]
      cases hg : defs.get? head with
      | some scope =>
        simp only [hg] at hne ⊢
        cases hm : missingIndex scope 1 rest with
        | none => rfl
        | some index =>
          simp only [hm] at hne ⊢
          rw [tryEach_mono (f := fun s : QPath => f s.1
                  (s.2 ++ (head :: rest).drop index) (visited ++ [m])) (fun s hs => h _ _ _ hs)]
          · cases ht : tryEach (fun s : QPath => f s.1
                  (s.2 ++ (head :: rest).drop index) (visited ++ [m]))
                  ((T.supers m ((head :: rest).take index)).getD []) with
            | some r => rfl
            | none =>
              rw [ht] at hne
              simp only at hne ⊢
              by_cases c3 : head ≠ "object"
              · rw [if_pos c3] at hne
                rw [if_pos c3, if_pos c3]
                exact h _ _ _ hne
              · rw [if_neg c3, if_neg c3]
          · intro hc
            rw [hc] at hne
            exact hne rfl
      | none =>
        simp only [hg] at hne ⊢
        rw [tryEach_mono (f := fun s => f s (head :: rest) (visited ++ [m]))
          (fun s hs => h _ _ _ hs)]
        · cases ht : tryEach (fun s => f s (head :: rest) (visited ++ [m]))
                ((T.subs m).filter (fun s => !visited.contains s)) with
          | some r => rfl
          | none =>
            rw [ht] at hne
            simp only at hne ⊢
            cases hr : T.references.lookup m with
            | none => rfl
            | some refs =>
              simp only [hr] at hne ⊢
              cases hl : longestReference refs (head :: rest) (rest.length + 1) with
              | none => rfl
              | some kr =>
                obtain ⟨k, rm, ro⟩ := kr
                simp only [hl] at hne ⊢
                rw [h rm ro (visited ++ [m])]
                · cases hf : f rm ro (visited ++ [m]) with
                  | ok q =>
                    rw [hf] at hne
                    exact h _ _ _ hne
                  | error e =>
                    rw [hf] at hne
                    cases e <;> try rfl
                    simp only at hne ⊢
                    by_cases c4 : ro.length ≠ 1
                    · rw [if_pos c4, if_pos c4]
                    rw [if_neg c4] at hne
                    rw [if_neg c4, if_neg c4]
                    by_cases c5 : (T.definitions.lookup (rm ++ ro)).isNone = true
                    · rw [if_pos c5, if_pos c5]
                    rw [if_neg c5] at hne
                    rw [if_neg c5, if_neg c5]
                    exact h _ _ _ hne
                · intro hc
                  rw [hc] at hne
                  exact hne rfl
        · intro hc
          rw [hc] at hne
          exact hne rfl

/-- Allowing deeper recursion does not change an answer. -/
theorem resolve_mono_succ (T : Tables) : ∀ (n : Nat) (m parent object : Path) (visited : List Path),
    resolve T n m parent object visited ≠ .error .recursionError →
    resolve T (n + 1) m parent object visited = resolve T n m parent object visited
  | 0, _, _, _, _, h => absurd rfl h
  | n + 1, m, parent, object, visited, h => by
    rw [resolve_succ T n] at h
    rw [resolve_succ T (n + 1), resolve_succ T n]
    exact step_mono (fun m o v => resolve_mono_succ T n m [] o v) h

theorem resolve_mono {T : Tables} {n k : Nat} (hk : n ≤ k) {m parent object : Path}
    {visited : List Path} (h : resolve T n m parent object visited ≠ .error .recursionError) :
    resolve T k m parent object visited = resolve T n m parent object visited := by
  induction hk with
  | refl => rfl
  | step _ ih =>
    rw [resolve_mono_succ T _ _ _ _ _ (by rw [ih]; exact h), ih]

theorem answers_of {T : Tables} {n : Nat} {m parent object : Path}
    {visited : List Path} {r : Except PyErr QPath}
    (h : resolve T n m parent object visited = r) (hr : r ≠ .error .recursionError) :
    Answers T m parent object visited r :=
  ⟨n, fun k hk => by rw [resolve_mono hk (by rw [h]; exact hr), h]⟩

theorem answers_unique {T : Tables} {m parent object : Path}
    {visited : List Path} {r r' : Except PyErr QPath}
    (h : Answers T m parent object visited r) (h' : Answers T m parent object visited r') :
    r = r' := by
  obtain ⟨n, h⟩ := h
  obtain ⟨n', h'⟩ := h'
  rw [← h (max n n') (by omega), ← h' (max n n') (by omega)]

theorem tryEach_some {α β : Type} {f : α → Except PyErr β} {r : Except PyErr β} : ∀ {xs : List α},
    tryEach f xs = some r → ∃ x ∈ xs, f x = r ∧ r ≠ .error .objectNotFound
  | [], h => by simp [tryEach] at h
  | x :: xs, h => by
    rw [tryEach] at h
    split at h
    · obtain ⟨y, hy, h⟩ := tryEach_some h
      exact ⟨y, by simp [hy], h⟩
    · rename_i hne
      refine ⟨x, by simp, Option.some.inj h, ?_⟩
      intro hr
      exact hne ((Option.some.inj h).trans hr)

theorem tryEach_none {α β : Type} {f : α → Except PyErr β} : ∀ {xs : List α},
    tryEach f xs = none ↔ ∀ x ∈ xs, f x = .error .objectNotFound
  | [] => by simp [tryEach]
  | x :: xs => by
    rw [tryEach]
    split
    · rename_i e
      rw [tryEach_none]
      simp [e]
    · rename_i e
      simp only [reduceCtorEq, List.mem_cons, forall_eq_or_imp, false_iff, not_and]
      intro h
      exact absurd h (by simpa using e)

theorem tryEach_first {α β : Type} {f : α → Except PyErr β} {r : Except PyErr β}
    (hr : r ≠ .error .objectNotFound) {x : α} {post : List α} (hx : f x = r) : ∀ {pre : List α},
    (∀ y ∈ pre, f y = .error .objectNotFound) → tryEach f (pre ++ x :: post) = some r
  | [], _ => by
    rw [List.nil_append, tryEach, hx]
    split
    · exact absurd rfl hr
    · rfl
  | y :: pre, h => by
    rw [List.cons_append, tryEach, h y (by simp)]
    exact tryEach_first hr hx (fun z hz => h z (by simp [hz]))

theorem longestReference_some {refs : Dict Path QPath} {path : Path} {q : QPath} {k : Nat} :
    ∀ {n : Nat}, longestReference refs path n = some (k, q) →
      1 ≤ k ∧ k ≤ n ∧ refs.lookup (path.take k) = some q ∧
      ∀ j, k < j → j ≤ n → refs.lookup (path.take j) = none
  | 0, h => by simp [longestReference] at h
  | n + 1, h => by
    rw [longestReference] at h
    split at h
    · rename_i e
      simp only [Option.some.injEq, Prod.mk.injEq] at h
      obtain ⟨rfl, rfl⟩ := h
      exact ⟨by omega, by omega, e, fun j h1 h2 => by omega⟩
    · rename_i e
      obtain ⟨h1, h2, h3, h4⟩ := longestReference_some h
      refine ⟨h1, by omega, h3, fun j hj1 hj2 => ?_⟩
      by_cases hj : j = n + 1
      · rw [hj]; exact e
      · exact h4 j hj1 (by omega)

theorem longestReference_none {refs : Dict Path QPath} {path : Path} :
    ∀ {n : Nat}, longestReference refs path n = none ↔
      ∀ j, 1 ≤ j → j ≤ n → refs.lookup (path.take j) = none
  | 0 => by
    simp only [longestReference, true_iff]
    intro j h1 h2
    omega
  | n + 1 => by
    rw [longestReference]
    split
    · rename_i e
      simp only [reduceCtorEq, false_iff]
      intro h
      rw [h (n + 1) (by omega) (by omega)] at e
      simp at e
    · rename_i e
      rw [longestReference_none]
      refine ⟨fun h j h1 h2 => ?_, fun h j h1 h2 => h j h1 (by omega)⟩
      by_cases hj : j = n + 1
      · rw [hj]; exact e
      · exact h j h1 (by omega)

theorem longestReference_eq {refs : Dict Path QPath} {path : Path} {q : QPath} {k : Nat} :
    ∀ {n : Nat}, 1 ≤ k → k ≤ n → refs.lookup (path.take k) = some q →
      (∀ j, k < j → j ≤ n → refs.lookup (path.take j) = none) →
      longestReference refs path n = some (k, q)
  | 0, h1, h2, _, _ => by omega
  | n + 1, h1, h2, h3, h4 => by
    rw [longestReference]
    by_cases hk : k = n + 1
    · subst hk; rw [h3]
    · rw [h4 (n + 1) (by omega) (by omega)]
      exact longestReference_eq h1 (by omega) h3 (fun j a b => h4 j a (by omega))

/-- Every successful answer of a call is defined, if the nested ones are. -/
theorem step_ok {T : Tables} {f : Path → Path → List Path → Except PyErr QPath}
    (h : ∀ m o v q, f m o v = .ok q → DefinedIn T q.1 q.2)
    {m parent object : Path} {visited : List Path} {q : QPath}
    (hok : step T f m parent object visited = .ok q) : DefinedIn T q.1 q.2 := by
  unfold step at hok
  cases hd : T.definitions.lookup m with
  | none => simp [hd] at hok
  | some defs =>
    simp only [hd] at hok
    cases object with
    | nil =>
      simp only [Except.ok.injEq] at hok
      subst hok
      exact ⟨defs, hd, trivial⟩
    | cons head rest =>
      simp only at hok
      split at hok
      · simp at hok
      split at hok
      · exact h _ _ _ _ hok
      cases hg : defs.get? head with
      | some scope =>
        simp only [hg] at hok
        cases hm : missingIndex scope 1 rest with
        | none =>
          simp only [hm, Except.ok.injEq] at hok
          subst hok
          exact ⟨defs, hd, scope, hg, (missingIndex_none _ _ _).1 hm⟩
        | some index =>
          simp only [hm] at hok
          split at hok
          · rename_i e
            obtain ⟨s, _, hs, _⟩ := tryEach_some e
            exact h _ _ _ _ (hs.trans hok)
          · split at hok
            · exact h _ _ _ _ hok
            · simp at hok
      | none =>
        simp only [hg] at hok
        split at hok
        · rename_i e
          obtain ⟨s, _, hs, _⟩ := tryEach_some e
          exact h _ _ _ _ (hs.trans hok)
        · cases hr : T.references.lookup m with
          | none => simp [hr] at hok
          | some refs =>
            simp only [hr] at hok
            cases hl : longestReference refs (head :: rest) (rest.length + 1) with
            | some kr =>
              obtain ⟨k, rm, ro⟩ := kr
              simp only [hl] at hok
              split at hok
              · exact h _ _ _ _ hok
              · split at hok
                · simp at hok
                · split at hok
                  · simp at hok
                  · exact h _ _ _ _ hok
              · simp at hok
            | none =>
              simp only [hl] at hok
              cases hb : T.definitions.lookup builtinsPath with
              | none => simp [hb] at hok
              | some bs =>
                simp only [hb] at hok
                split at hok
                · rename_i hc
                  simp only [Except.ok.injEq] at hok
                  subst hok
                  exact ⟨bs, hb, (scopeContains_iff _ _).1 hc⟩
                · simp at hok

theorem resolve_defined {T : Tables} : ∀ {n : Nat} {m parent object : Path} {visited : List Path}
    {q : QPath}, resolve T n m parent object visited = .ok q → DefinedIn T q.1 q.2
  | 0, _, _, _, _, _, h => by simp [resolve] at h
  | n + 1, m, parent, object, visited, q, h => by
    rw [resolve_succ] at h
    exact step_ok (fun m o v q hq => resolve_defined (n := n) hq) h

/-- A path defined in a module resolves to itself in one call. -/
theorem resolve_of_defined {T : Tables} {m object : Path} (h : DefinedIn T m object)
    (n : Nat) (visited : List Path) : resolve T (n + 1) m [] object visited = .ok (m, object) := by
  obtain ⟨scope, hd, h⟩ := h
  rw [resolve_succ, step, hd]
  cases object with
  | nil => rfl
  | cons head rest =>
    obtain ⟨inner, h1, h2⟩ := h
    simp [scopeContains, Scope.get?, h1, (missingIndex_none rest inner 1).2 h2]

end Paradigm
